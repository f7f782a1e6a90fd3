import Verif.Trigger.Props

/-!
# C109: infinite executions of Trigger with a fair scheduler

Any number of threads keep calling member functions of a Trigger object, the clocks are set, waiting threads
wake up without reason.  The object is not destroyed while it is used.  The scheduler and the mutex are fair
to each thread.
-/
namespace Gul14.Trigger
open Spec.Trig

/-- An infinite execution.  (An execution that ends is continued by steps `tick` that set the clocks to what
they show.)  The interleavings of Trigger.cc:33-76 and Trigger.h:189-216. -/
structure Exec (b : Bool) where
  st : Nat → St
  ev : Nat → Ev
  init : st 0 = init b
  step : ∀ n, Step (st n) (ev n) (st (n + 1))
  alive : ∀ n, (st n).alive = true

/-- The events of the first `n` steps. -/
def Exec.events {b : Bool} (x : Exec b) : Nat → List Ev
  | 0 => []
  | n + 1 => x.events n ++ [x.ev n]

/-- Thread `i` is in a call and can go on by itself: it waits for a mutex that is free, or owns it, or is
about to notify, or waits with a deadline that has passed. -/
def Ready (s : St) (i : Nat) : Prop :=
  match s.pc i with
  | .lockTrigger _ | .lockReset | .lockRead | .lockWait _ _ | .woken _ => s.owner = none
  | .setHigh _ | .setLow | .reading | .test _ | .last _ | .notify _ => True
  | .blocked w => ∃ d, w.limit = some d ∧ passed s d
  | .idle | .die => False

/-- The assumptions about the scheduler, the mutex and the condition variable: a thread that can go on again
and again goes on at some time; a timed wait of the condition variable reports a timeout if the deadline has
passed when the mutex has been reacquired. -/
structure Fair {b : Bool} (x : Exec b) : Prop where
  thread : ∀ i n, (∀ m, n ≤ m → ∃ k, m ≤ k ∧ Ready (x.st k) i) → ∃ k, n ≤ k ∧ (x.st (k + 1)).pc i ≠ (x.st k).pc i
  expired : ∀ i w d n, (x.st n).pc i = .woken w → w.limit = some d → passed (x.st n) d →
    (x.st (n + 1)).pc i = .woken w ∨ (x.st (n + 1)).pc i = .last w

variable {b : Bool} {es : List Ev} {s s' : St} {e : Ev}

/-- Fairness asks for nothing impossible: a thread that can go on has a step. -/
theorem ready_step {i : Nat} (ha : s.alive = true) (h : Ready s i) : ∃ e s', Step s e s' ∧ s'.pc i ≠ s.pc i := by
  unfold Ready at h
  cases hp : s.pc i with
  | idle => rw [hp] at h; exact h.elim
  | die => rw [hp] at h; exact h.elim
  | lockTrigger d => rw [hp] at h; exact ⟨_, _, .lockTrigger s i d ha hp h, by rw [goto_same]; simp⟩
  | lockReset => rw [hp] at h; exact ⟨_, _, .lockReset s i ha hp h, by rw [goto_same]; simp⟩
  | lockRead => rw [hp] at h; exact ⟨_, _, .lockRead s i ha hp h, by rw [goto_same]; simp⟩
  | lockWait c t => rw [hp] at h; exact ⟨_, _, .lockWait s i c t ha hp h, by rw [goto_same]; simp⟩
  | woken w => rw [hp] at h; exact ⟨_, _, .relock s i w ha hp h, by rw [goto_same]; simp⟩
  | setHigh d => exact ⟨_, _, .setHigh s i d ha hp, by rw [goto_same]; simp⟩
  | setLow => exact ⟨_, _, .setLow s i ha hp, by rw [goto_same]; simp⟩
  | reading => exact ⟨_, _, .read s i ha hp, by rw [goto_same]; simp⟩
  | test w =>
      cases ht : s.triggered with
      | true => exact ⟨_, _, .testTrue s i w ha hp ht, by rw [goto_same]; simp⟩
      | false => exact ⟨_, _, .testFalse s i w ha hp ht, by rw [goto_same]; simp⟩
  | last w => exact ⟨_, _, .lastTest s i w ha hp, by rw [goto_same]; simp⟩
  | notify d =>
      cases d with
      | false => exact ⟨_, _, .notify s i ha hp, by simp⟩
      | true => exact ⟨_, _, .notifyDtor s i ha hp, by simp⟩
  | blocked w =>
      rw [hp] at h
      obtain ⟨d, h1, h2⟩ := h
      exact ⟨_, _, .timeout s i w d hp h1 h2, by rw [goto_same]; simp⟩

theorem Exec.run (x : Exec b) (n : Nat) : Run b (x.events n) (x.st n) := by
  induction n with
  | zero => rw [x.init]; exact .init
  | succ n ih => exact ih.step (x.step n)

/-- A sequence that does not stay where it is: the first change. -/
theorem first_change {α : Type} (f : Nat → α) {n : Nat} (h : ¬ ∀ k, n ≤ k → f k = f n) :
    ∃ k, n ≤ k ∧ f k = f n ∧ f (k + 1) ≠ f n := by
  by_cases hx : ∃ k, n ≤ k ∧ f k = f n ∧ f (k + 1) ≠ f n
  · exact hx
  · exfalso
    apply h
    intro k hk
    induction k with
    | zero => have : n = 0 := by omega
              rw [this]
    | succ k ih =>
        by_cases hn : n = k + 1
        · rw [hn]
        · have h1 := ih (by omega)
          by_cases h2 : f (k + 1) = f n
          · exact h2
          · exact absurd ⟨k, by omega, h1, h2⟩ hx

/-- The steps of one thread. -/
inductive Moves (s : St) (e : Ev) (s' : St) (i : Nat) : Prop
  | start (h : s.pc i = .idle)
  | lockTrigger (d : Bool) (h : s.pc i = .lockTrigger d) (h' : s'.pc i = .setHigh d)
  | setHigh (d : Bool) (h : s.pc i = .setHigh d) (h' : s'.pc i = .notify d) (ho : s'.owner = none)
  | notify (d : Bool) (h : s.pc i = .notify d) (h' : s'.pc i = .idle ∨ s'.pc i = .die)
      (hw : ∀ k, isBlocked (s'.pc k) = false)
  | die (h : s.pc i = .die)
  | lockReset (h : s.pc i = .lockReset) (h' : s'.pc i = .setLow)
  | setLow (h : s.pc i = .setLow) (h' : s'.pc i = .idle) (ho : s'.owner = none)
  | lockRead (h : s.pc i = .lockRead) (h' : s'.pc i = .reading)
  | read (h : s.pc i = .reading) (h' : s'.pc i = .idle) (ho : s'.owner = none)
  | lockWait (c : Call) (t : Nat) (h : s.pc i = .lockWait c t) (h' : s'.pc i = .test ⟨c, t, limitOf s c⟩)
  | testTrue (w : Wait) (h : s.pc i = .test w) (h' : s'.pc i = .idle) (ho : s'.owner = none)
  | testFalse (w : Wait) (h : s.pc i = .test w) (h' : s'.pc i = .blocked w) (ht : s.triggered = false)
      (ho : s'.owner = none)
  | wake (w : Wait) (h : s.pc i = .blocked w) (h' : s'.pc i = .woken w)
  | relock (w : Wait) (h : s.pc i = .woken w) (h' : s'.pc i = .test w ∨ s'.pc i = .last w)
  | lastTest (w : Wait) (h : s.pc i = .last w) (h' : s'.pc i = .idle) (ho : s'.owner = none)

theorem thread_step (hs : Step s e s') (i : Nat) : s'.pc i = s.pc i ∨ Moves s e s' i := by
  have key : ∀ {j : Nat} {p : Pc}, s'.pc = (s.goto j p).pc → (i = j → s'.pc i = p → Moves s e s' i) →
      s'.pc i = s.pc i ∨ Moves s e s' i := by
    intro j p h1 h2
    by_cases hj : i = j
    · subst hj; exact Or.inr (h2 rfl (by rw [h1, goto_same]))
    · exact Or.inl (by rw [h1, goto_other hj])
  have note : ∀ {j : Nat} {d : Bool} {p : Pc}, s.pc j = .notify d → (p = .idle ∨ p = .die) →
      s' = { s with pc := fun k => if k = j then p else Trigger.wake (s.pc k) } →
      s'.pc i = s.pc i ∨ Moves s e s' i := by
    intro j d p h1 hp h2
    by_cases hj : i = j
    · subst hj
      refine Or.inr (.notify d h1 (by rw [h2]; simpa using hp) ?_)
      intro k
      rw [h2]
      show isBlocked (if k = i then p else Trigger.wake (s.pc k)) = false
      split
      · rcases hp with hp | hp <;> rw [hp] <;> rfl
      · exact wake_not_blocked _
    · have h3 : s'.pc i = Trigger.wake (s.pc i) := by
        rw [h2]; show (if i = j then p else Trigger.wake (s.pc i)) = _
        rw [if_neg hj]
      cases hq : s.pc i with
      | blocked w => rw [hq] at h3; exact Or.inr (.wake w hq h3)
      | _ => left; rw [h3, hq]; rfl
  cases hs with
  | start j c h => exact key (j := j) rfl (by rintro rfl _; exact .start h)
  | lockTrigger j d ha h ho => exact key (j := j) rfl (by rintro rfl h'; exact .lockTrigger d h h')
  | setHigh j d ha h => exact key (j := j) rfl (by rintro rfl h'; exact .setHigh d h h' rfl)
  | notify j ha h => exact note h (Or.inl rfl) rfl
  | notifyDtor j ha h => exact note h (Or.inr rfl) rfl
  | die j ha h hb => exact key (j := j) rfl (by rintro rfl _; exact .die h)
  | dieBlocked => exact Or.inl rfl
  | lockReset j ha h ho => exact key (j := j) rfl (by rintro rfl h'; exact .lockReset h h')
  | setLow j ha h => exact key (j := j) rfl (by rintro rfl h'; exact .setLow h h' rfl)
  | lockRead j ha h ho => exact key (j := j) rfl (by rintro rfl h'; exact .lockRead h h')
  | read j ha h => exact key (j := j) rfl (by rintro rfl h'; exact .read h h' rfl)
  | lockWait j c t ha h ho => exact key (j := j) rfl (by rintro rfl h'; exact .lockWait c t h h')
  | testTrue j w ha h ht => exact key (j := j) rfl (by rintro rfl h'; exact .testTrue w h h' rfl)
  | testFalse j w ha h ht => exact key (j := j) rfl (by rintro rfl h'; exact .testFalse w h h' ht rfl)
  | timeout j w d h => exact key (j := j) rfl (by rintro rfl h'; exact .wake w h h')
  | spurious j w h => exact key (j := j) rfl (by rintro rfl h'; exact .wake w h h')
  | relock j w ha h => exact key (j := j) rfl (by rintro rfl h'; exact .relock w h (Or.inl h'))
  | relockTimeout j w d ha h => exact key (j := j) rfl (by rintro rfl h'; exact .relock w h (Or.inr h'))
  | lastTest j w ha h => exact key (j := j) rfl (by rintro rfl h'; exact .lastTest w h h' rfl)
  | tick => exact Or.inl rfl
  | dead => exact Or.inl rfl

theorem Fair.leaves {x : Exec b} (hf : Fair x) {i n : Nat} {p : Pc} (hp : (x.st n).pc i = p)
    (hr : ∀ m, n ≤ m → (∀ k, n ≤ k → (x.st k).pc i = p) → ∃ k, m ≤ k ∧ Ready (x.st k) i) :
    ∃ k, n ≤ k ∧ (x.st k).pc i = p ∧ Moves (x.st k) (x.ev k) (x.st (k + 1)) i := by
  subst hp
  obtain ⟨k, hk, h1, h2⟩ := first_change (fun k => (x.st k).pc i) (n := n) (fun hall => by
    obtain ⟨k, hk, h1⟩ := hf.thread i n (fun m hm => hr m hm hall)
    exact h1 (by rw [hall (k + 1) (by omega), hall k hk]))
  rcases thread_step (x.step k) i with h3 | h3
  · exact absurd (h3.trans h1) h2
  · exact ⟨k, hk, h1, h3⟩

/-- The mutex is never kept for ever. -/
theorem Fair.mutex_free {x : Exec b} (hf : Fair x) (n : Nat) : ∃ k, n ≤ k ∧ (x.st k).owner = none := by
  cases ho : (x.st n).owner with
  | none => exact ⟨n, Nat.le_refl n, ho⟩
  | some i =>
      have hh := ((inv_run (x.run n)).owner i).mpr ho
      obtain ⟨k, hk, h1, h2⟩ := hf.leaves (i := i) rfl (fun m hm hall => ⟨m, Nat.le_refl m, by
        unfold Ready; rw [hall m hm]
        cases hp : (x.st n).pc i <;> rw [hp] at hh <;> first | trivial | cases hh⟩)
      refine ⟨k + 1, by omega, ?_⟩
      rw [← h1] at hh
      cases h2 with
      | setHigh _ _ _ ho | setLow _ _ ho | read _ _ ho | testTrue _ _ _ ho | testFalse _ _ _ _ ho | lastTest _ _ _ ho => exact ho
      | start h | lockTrigger _ h | notify _ h | die h | lockReset h | lockRead h | lockWait _ _ h | wake _ h | relock _ h =>
          rw [h] at hh; cases hh

/-- A thread that is in a call and not blocked goes on. -/
theorem Fair.goes_on {x : Exec b} (hf : Fair x) {i n : Nat} (hb : isBlocked ((x.st n).pc i) = false)
    (h1 : (x.st n).pc i ≠ .idle) (h2 : (x.st n).pc i ≠ .die) :
    ∃ k, n ≤ k ∧ (x.st k).pc i = (x.st n).pc i ∧ Moves (x.st k) (x.ev k) (x.st (k + 1)) i := by
  refine hf.leaves rfl (fun m hm hall => ?_)
  obtain ⟨k, hk, ho⟩ := hf.mutex_free m
  refine ⟨k, hk, ?_⟩
  unfold Ready
  rw [hall k (by omega)]
  cases hp : (x.st n).pc i <;> rw [hp] at hb h1 h2 <;>
    first | exact ho | trivial | exact absurd rfl h1 | exact absurd rfl h2 | cases hb

/-- The thread is in a wait. -/
def waiting : Pc → Bool
  | .lockWait _ _ | .test _ | .blocked _ | .woken _ | .last _ => true
  | _ => false

/-- What is left of a call if it does not have to wait. -/
def left : Pc → Nat
  | .lockTrigger _ => 3
  | .setHigh _ | .lockReset | .lockRead => 2
  | .notify _ | .setLow | .reading => 1
  | .blocked _ => 3
  | .lockWait _ _ | .woken _ => 2
  | .test _ | .last _ => 1
  | .idle | .die => 0

theorem Fair.returns {x : Exec b} (hf : Fair x) (i n : Nat)
    (hh : waiting ((x.st n).pc i) = true → ∀ m, n ≤ m → (x.st m).triggered = true) :
    ∃ m, n ≤ m ∧ ((x.st m).pc i = .idle ∨ (x.st m).pc i = .die) := by
  generalize hr : left ((x.st n).pc i) = r
  induction r using Nat.strongRecOn generalizing n with
  | ind r ih =>
      by_cases hi : (x.st n).pc i = .idle
      · exact ⟨n, Nat.le_refl n, Or.inl hi⟩
      by_cases hd : (x.st n).pc i = .die
      · exact ⟨n, Nat.le_refl n, Or.inr hd⟩
      have go : ∀ k p, n ≤ k → (x.st (k + 1)).pc i = p → left p < r → (waiting p = true → waiting ((x.st n).pc i) = true) →
          ∃ m, n ≤ m ∧ ((x.st m).pc i = .idle ∨ (x.st m).pc i = .die) := by
        intro k p hk h1 h2 h3
        obtain ⟨m, hm, h⟩ := ih _ (by rw [h1]; exact h2) (k + 1)
          (fun h4 m hm => hh (h3 (by rw [h1] at h4; exact h4)) m (by omega)) rfl
        exact ⟨m, by omega, h⟩
      -- a blocked thread is woken
      have hmv : ∃ k, n ≤ k ∧ (x.st k).pc i = (x.st n).pc i ∧ Moves (x.st k) (x.ev k) (x.st (k + 1)) i := by
        cases hb : isBlocked ((x.st n).pc i) with
        | false => exact hf.goes_on hb hi hd
        | true =>
            have hht := hh (by cases hp : (x.st n).pc i <;> rw [hp] at hb <;> first | rfl | cases hb)
            obtain ⟨j, d, hj⟩ := (inv_run (x.run n)).wakeup (hht n (Nat.le_refl n)) ⟨i, hb⟩
            obtain ⟨k, hk, h1, h2⟩ := hf.goes_on (i := j) (n := n) (by rw [hj]; rfl) (by rw [hj]; simp) (by rw [hj]; simp)
            rw [hj] at h1
            have hw : isBlocked ((x.st (k + 1)).pc i) = false := by
              cases h2 with
              | notify d h h' hw => exact hw i
              | start h | lockTrigger _ h | setHigh _ h | die h | lockReset h | setLow h | lockRead h | read h | lockWait _ _ h
              | testTrue _ h | testFalse _ h | wake _ h | relock _ h | lastTest _ h => rw [h1] at h; cases h
            obtain ⟨m, hm, h3, h4⟩ := first_change (fun k => (x.st k).pc i) (n := n) (fun hall => by
              rw [hall (k + 1) (by omega), hb] at hw; cases hw)
            rcases thread_step (x.step m) i with h5 | h5
            · exact absurd (h5.trans h3) h4
            · exact ⟨m, hm, h3, h5⟩
      obtain ⟨k, hk, h1, h2⟩ := hmv
      have hl : ∀ {p q : Pc}, (x.st k).pc i = p → left q < left p → left q < r := by
        intro p q h3 h4
        rw [← hr, ← h1, h3]; exact h4
      cases h2 with
      | start h => exact absurd (h1 ▸ h) hi
      | die h => exact absurd (h1 ▸ h) hd
      | lockTrigger d h h' => exact go k _ hk h' (hl h (by show 2 < 3; decide)) (by simp [waiting])
      | setHigh d h h' => exact go k _ hk h' (hl h (by show 1 < 2; decide)) (by simp [waiting])
      | notify d h h' => exact ⟨k + 1, by omega, h'⟩
      | lockReset h h' => exact go k _ hk h' (hl h (by decide)) (by simp [waiting])
      | setLow h h' => exact ⟨k + 1, by omega, Or.inl h'⟩
      | lockRead h h' => exact go k _ hk h' (hl h (by decide)) (by simp [waiting])
      | read h h' => exact ⟨k + 1, by omega, Or.inl h'⟩
      | lockWait c t h h' => exact go k _ hk h' (hl h (by show 1 < 2; decide)) (fun _ => by rw [← h1, h]; rfl)
      | testTrue w h h' => exact ⟨k + 1, by omega, Or.inl h'⟩
      | testFalse w h h' ht =>
          rw [hh (by rw [← h1, h]; rfl) k hk] at ht; cases ht
      | wake w h h' => exact go k _ hk h' (hl h (by show 2 < 3; decide)) (fun _ => by rw [← h1, h]; rfl)
      | relock w h h' =>
          rcases h' with h' | h'
          · exact go k _ hk h' (hl h (by show 1 < 2; decide)) (fun _ => by rw [← h1, h]; rfl)
          · exact go k _ hk h' (hl h (by show 1 < 2; decide)) (fun _ => by rw [← h1, h]; rfl)
      | lastTest w h h' => exact ⟨k + 1, by omega, Or.inl h'⟩

/-- **C109.**  trigger(), reset(), assignments and the conversion to bool return, whatever other threads do.
(`die`: the destructor has sent its signal.) -/
theorem c109_calls_return {x : Exec b} (hf : Fair x) (i n : Nat) (hw : waiting ((x.st n).pc i) = false) :
    ∃ m, n ≤ m ∧ ((x.st m).pc i = .idle ∨ (x.st m).pc i = .die) :=
  hf.returns i n (fun h => by rw [hw] at h; cases h)

/-- **C109.**  If the trigger is high from some moment on, every call in progress and every later one returns,
also those that wait without a time limit. -/
theorem c109_standing_trigger {x : Exec b} (hf : Fair x) {n : Nat} (ht : ∀ m, n ≤ m → levelAfter b (x.events m) = true)
    (i : Nat) : ∀ m, n ≤ m → ∃ k, m ≤ k ∧ ((x.st k).pc i = .idle ∨ (x.st k).pc i = .die) := by
  intro m hm
  exact hf.returns i m (fun _ k hk => by rw [(inv_run (x.run k)).level]; exact ht k (by omega))

theorem now_mono (x : Exec b) {n m : Nat} (h : n ≤ m) : (x.st n).now ≤ (x.st m).now := by
  induction m with
  | zero => have : n = 0 := by omega
            subst this; exact Nat.le_refl _
  | succ m ih =>
      by_cases hn : n = m + 1
      · subst hn; exact Nat.le_refl _
      · refine Nat.le_trans (ih (by omega)) ?_
        have hs := x.step m
        generalize x.ev m = e at hs
        generalize x.st m = s at hs
        generalize x.st (m + 1) = s' at hs
        cases hs with
        | tick n m h => exact h
        | _ => exact Nat.le_refl _

/-- What is left of a wait whose deadline has passed. -/
def timedLeft : Pc → Nat
  | .test _ => 4
  | .blocked _ => 3
  | .woken _ => 2
  | .last _ => 1
  | _ => 0

theorem Fair.timed {x : Exec b} (hf : Fair x) {i : Nat} {w : Wait} {d : Deadline} (hl : w.limit = some d) (n : Nat)
    (hp : ∀ m, n ≤ m → passed (x.st m) d) (hw : waitOf ((x.st n).pc i) = some w) :
    ∃ m, n ≤ m ∧ (x.st m).pc i = .idle := by
  generalize hr : timedLeft ((x.st n).pc i) = r
  induction r using Nat.strongRecOn generalizing n with
  | ind r ih =>
      have go : ∀ k p, n ≤ k → (x.st (k + 1)).pc i = p → timedLeft p < r → waitOf p = some w →
          ∃ m, n ≤ m ∧ (x.st m).pc i = .idle := by
        intro k p hk h1 h2 h3
        obtain ⟨m, hm, h⟩ := ih _ (by rw [h1]; exact h2) (k + 1) (fun m hm => hp m (by omega)) (by rw [h1]; exact h3) rfl
        exact ⟨m, by omega, h⟩
      have hmv : ∃ k, n ≤ k ∧ (x.st k).pc i = (x.st n).pc i ∧ Moves (x.st k) (x.ev k) (x.st (k + 1)) i := by
        cases hq : (x.st n).pc i with
        | blocked w' =>
            rw [hq] at hw; cases hw
            exact hf.leaves hq (fun m hm hall => ⟨m, Nat.le_refl m, by
              unfold Ready; rw [hall m hm]; exact ⟨d, hl, hp m hm⟩⟩)
        | test w' => rw [← hq]; exact hf.goes_on (by rw [hq]; rfl) (by rw [hq]; simp) (by rw [hq]; simp)
        | woken w' => rw [← hq]; exact hf.goes_on (by rw [hq]; rfl) (by rw [hq]; simp) (by rw [hq]; simp)
        | last w' => rw [← hq]; exact hf.goes_on (by rw [hq]; rfl) (by rw [hq]; simp) (by rw [hq]; simp)
        | _ => rw [hq] at hw; cases hw
      obtain ⟨k, hk, h1, h2⟩ := hmv
      have hlt : ∀ {p q : Pc}, (x.st k).pc i = p → timedLeft q < timedLeft p → timedLeft q < r := by
        intro p q h3 h4
        rw [← hr, ← h1, h3]; exact h4
      rw [← h1] at hw
      cases h2 with
      | testTrue w' h h' => exact ⟨k + 1, by omega, h'⟩
      | lastTest w' h h' => exact ⟨k + 1, by omega, h'⟩
      | testFalse w' h h' => exact go k _ hk h' (hlt h (by show 3 < 4; decide)) (by rw [h] at hw; exact hw)
      | wake w' h h' => exact go k _ hk h' (hlt h (by show 2 < 3; decide)) (by rw [h] at hw; exact hw)
      | relock w' h h' =>
          have hww : w' = w := by rw [h] at hw; cases hw; rfl
          subst hww
          rcases hf.expired i w' d k h hl (hp k hk) with h3 | h3
          · rcases h' with h' | h' <;> rw [h3] at h' <;> cases h'
          · exact go k _ hk h3 (hlt h (by show 1 < 2; decide)) rfl
      | start h | lockTrigger _ h | setHigh _ h | notify _ h | die h | lockReset h | setLow h | lockRead h | read h
      | lockWait _ _ h => rw [h] at hw; cases hw

/-- A wait is in progress until it returns. -/
theorem wait_stays (x : Exec b) {i n : Nat} {w : Wait} (hw : waitOf ((x.st n).pc i) = some w) {m : Nat} (hm : n ≤ m) :
    (∃ k, n ≤ k ∧ (x.st k).pc i = .idle) ∨ waitOf ((x.st m).pc i) = some w := by
  induction m with
  | zero => have : n = 0 := by omega
            subst this; exact Or.inr hw
  | succ m ih =>
      by_cases hn : n = m + 1
      · subst hn; exact Or.inr hw
      · rcases ih (by omega) with h | h
        · exact Or.inl h
        · rcases thread_step (x.step m) i with h3 | h3
          · exact Or.inr (by rw [h3]; exact h)
          · cases h3 with
            | testTrue w' _ h' => exact Or.inl ⟨m + 1, by omega, h'⟩
            | lastTest w' _ h' => exact Or.inl ⟨m + 1, by omega, h'⟩
            | testFalse w' h1 h' => rw [h1] at h; exact Or.inr (by rw [h']; exact h)
            | wake w' h1 h' => rw [h1] at h; exact Or.inr (by rw [h']; exact h)
            | relock w' h1 h' => rw [h1] at h; rcases h' with h' | h' <;> exact Or.inr (by rw [h']; exact h)
            | start h1 | lockTrigger _ h1 | setHigh _ h1 | notify _ h1 | die h1 | lockReset h1 | setLow h1 | lockRead h1
            | read h1 | lockWait _ _ h1 => rw [h1] at h; cases h

/-- The call that is in progress. -/
def waitCall : Pc → Option Call
  | .lockWait c _ => some c
  | .test w | .blocked w | .woken w | .last w => some w.call
  | _ => none

/-- **C109.**  wait_for and sleep return if time goes on, and wait_until returns if the clock it uses shows the
given time or a later one from some moment on, whatever other threads do with the trigger. -/
theorem c109_timed_waits_return {x : Exec b} (hf : Fair x) {i n : Nat} {c : Call} (hc : waitCall ((x.st n).pc i) = some c)
    (ht : (∃ d, (c = .waitFor d ∨ c = .sleep d) ∧ ∀ T, ∃ m, T ≤ (x.st m).now) ∨
      ∃ t N, c = .waitUntil t ∧ ∀ m, N ≤ m → t ≤ (x.st m).other) :
    ∃ m, n ≤ m ∧ (x.st m).pc i = .idle := by
  -- in the wait proper
  have inside : ∀ n w, waitOf ((x.st n).pc i) = some w → w.call = c → ∃ m, n ≤ m ∧ (x.st m).pc i = .idle := by
    intro n w hw hwc
    have hg := ((inv_run (x.run n)).waits i w hw).1
    have hd : ∃ d N, w.limit = some d ∧ ∀ m, N ≤ m → passed (x.st m) d := by
      rcases ht with ⟨d, h1, h2⟩ | ⟨t, N, h1, h2⟩
      · obtain ⟨t, h3, _⟩ := hg.2.1 d (by rw [hwc]; exact h1)
        obtain ⟨N, hN⟩ := h2 t
        exact ⟨_, N, h3, fun m hm => Nat.le_trans hN (now_mono x hm)⟩
      · exact ⟨_, N, hg.2.2.1 t (by rw [hwc]; exact h1), h2⟩
    obtain ⟨d, N, h1, h2⟩ := hd
    rcases wait_stays x hw (m := max n N) (by omega) with h3 | h3
    · exact h3
    · obtain ⟨m, hm, h4⟩ := hf.timed h1 (max n N) (fun m hm => h2 m (by omega)) h3
      exact ⟨m, by omega, h4⟩
  cases hp : (x.st n).pc i with
  | lockWait c' t =>
      rw [hp] at hc; cases hc
      obtain ⟨k, hk, h1, h2⟩ := hf.goes_on (i := i) (n := n) (by rw [hp]; rfl) (by rw [hp]; simp) (by rw [hp]; simp)
      rw [hp] at h1
      cases h2 with
      | lockWait c2 t2 h h' =>
          rw [h1] at h; cases h
          obtain ⟨m, hm, h3⟩ := inside (k + 1) _ (by rw [h']; rfl) rfl
          exact ⟨m, by omega, h3⟩
      | start h | lockTrigger _ h | setHigh _ h | notify _ h | die h | lockReset h | setLow h | lockRead h | read h
      | testTrue _ h | testFalse _ h | wake _ h | relock _ h | lastTest _ h => rw [h1] at h; cases h
  | test w => rw [hp] at hc; cases hc; exact inside n w (by rw [hp]; rfl) rfl
  | blocked w => rw [hp] at hc; cases hc; exact inside n w (by rw [hp]; rfl) rfl
  | woken w => rw [hp] at hc; cases hc; exact inside n w (by rw [hp]; rfl) rfl
  | last w => rw [hp] at hc; cases hc; exact inside n w (by rw [hp]; rfl) rfl
  | _ => rw [hp] at hc; cases hc

/-! ### Such executions exist -/

/-- All threads but 1 and 2 are in no call. -/
private def two (p q : Pc) : Nat → Pc := fun k => if k = 1 then p else if k = 2 then q else .idle

private theorem two_goto1 {tr al er : Bool} {o : Option Nat} {n m : Nat} {p p' q : Pc} :
    (St.goto ⟨tr, o, al, n, m, two p q, er⟩ 1 p') = ⟨tr, o, al, n, m, two p' q, er⟩ := by
  unfold St.goto
  congr 1
  funext k
  simp only [two]
  split <;> rfl

private theorem two_goto2 {tr al er : Bool} {o : Option Nat} {n m : Nat} {p q q' : Pc} :
    (St.goto ⟨tr, o, al, n, m, two p q, er⟩ 2 q') = ⟨tr, o, al, n, m, two p q', er⟩ := by
  unfold St.goto
  congr 1
  funext k
  simp only [two]
  by_cases h : k = 2
  · subst h; rfl
  · simp only [h, if_false]

private abbrev W5 : Wait := ⟨.sleep 5, 0, some (.steady 5)⟩
private abbrev W0 : Wait := ⟨.wait, 0, none⟩

/-- The states of an execution: a sleep that is not interrupted, while time goes on. -/
private def sleepSt : Nat → St
  | 0 => init false
  | 1 => ⟨false, none, true, 0, 0, two (.lockWait (.sleep 5) 0) .idle, false⟩
  | 2 => ⟨false, some 1, true, 0, 0, two (.test W5) .idle, false⟩
  | 3 => ⟨false, none, true, 0, 0, two (.blocked W5) .idle, false⟩
  | 4 => ⟨false, none, true, 7, 0, two (.blocked W5) .idle, false⟩
  | 5 => ⟨false, none, true, 7, 0, two (.woken W5) .idle, false⟩
  | 6 => ⟨false, some 1, true, 7, 0, two (.last W5) .idle, false⟩
  | n + 7 => ⟨false, none, true, 7 + n, 0, two .idle .idle, false⟩

private def sleepEv : Nat → Ev
  | 0 => .start 1 (.sleep 5)
  | 3 => .tick
  | 4 => .timeout 1
  | 6 => .result 1 (.sleep 5) (some true)
  | n => if n < 7 then .internal else .tick

private theorem init_two (b : Bool) : init b = ⟨b, none, true, 0, 0, two .idle .idle, false⟩ := by
  unfold init
  congr 1
  funext k
  simp only [two]
  repeat' split
  all_goals rfl

private def sleepExec : Exec false where
  st := sleepSt
  ev := sleepEv
  init := rfl
  step := by
    intro n
    match n with
    | 0 =>
        have := Step.start (init false) 1 (.sleep 5) rfl
        rw [init_two, two_goto1] at this
        show Step (init false) _ _
        rw [init_two]
        exact this
    | 1 => have := Step.lockWait (sleepSt 1) 1 (.sleep 5) 0 rfl rfl rfl
           simp only [sleepSt, two_goto1] at this; exact this
    | 2 => have := Step.testFalse (sleepSt 2) 1 W5 rfl rfl rfl
           simp only [sleepSt, two_goto1] at this; exact this
    | 3 => exact Step.tick (sleepSt 3) 7 0 (by decide)
    | 4 => have := Step.timeout (sleepSt 4) 1 W5 (.steady 5) rfl rfl (by show 5 ≤ 7; decide)
           simp only [sleepSt, two_goto1] at this; exact this
    | 5 => have := Step.relockTimeout (sleepSt 5) 1 W5 (.steady 5) rfl rfl rfl rfl (by show 5 ≤ 7; decide)
           simp only [sleepSt, two_goto1] at this; exact this
    | 6 => have := Step.lastTest (sleepSt 6) 1 W5 rfl rfl
           simp only [sleepSt, two_goto1] at this; exact this
    | n + 7 =>
        have := Step.tick (sleepSt (n + 7)) (7 + (n + 1)) 0 (by show 7 + n ≤ 7 + (n + 1); omega)
        have he : sleepEv (n + 7) = .tick := by unfold sleepEv; simp
        rw [he]; exact this
  alive := by
    intro n
    match n with
    | 0 | 1 | 2 | 3 | 4 | 5 | 6 | n + 7 => rfl

/-- The hypotheses of `c109_timed_waits_return` are met: thread 1 is asleep. -/
example : ∃ (x : Exec false), Fair x ∧ waitCall ((x.st 3).pc 1) = some (.sleep 5) ∧ ∀ T, ∃ m, T ≤ (x.st m).now := by
  refine ⟨sleepExec, ⟨?_, ?_⟩, rfl, fun T => ⟨T + 7, by show T ≤ 7 + T; omega⟩⟩
  · intro i n h
    obtain ⟨k, hk, h1⟩ := h (n + 7) (by omega)
    obtain ⟨j, rfl⟩ : ∃ j, k = j + 7 := ⟨k - 7, by omega⟩
    exfalso
    unfold Ready at h1
    have h2 : (sleepExec.st (j + 7)).pc i = .idle := by
      show two .idle .idle i = .idle
      simp only [two]; repeat' split
      all_goals rfl
    rw [h2] at h1
    exact h1
  · intro i w d n h1 h2 h3
    have hi : ∀ p, two p .idle i = .woken w → i = 1 ∧ p = .woken w := by
      intro p hp
      simp only [two] at hp
      split at hp
      · exact ⟨by assumption, hp⟩
      · split at hp <;> cases hp
    match n with
    | 0 => cases h1
    | 1 | 2 | 3 | 4 | 6 => have := (hi _ h1).2; cases this
    | n + 7 => have := (hi _ h1).2; cases this
    | 5 =>
        obtain ⟨rfl, h4⟩ := hi _ h1
        cases h4
        exact Or.inr rfl

/-- The states of an execution: thread 1 waits without a time limit, thread 2 calls trigger(). -/
private def waitSt : Nat → St
  | 0 => init false
  | 1 => ⟨false, none, true, 0, 0, two (.lockWait .wait 0) .idle, false⟩
  | 2 => ⟨false, some 1, true, 0, 0, two (.test W0) .idle, false⟩
  | 3 => ⟨false, none, true, 0, 0, two (.blocked W0) .idle, false⟩
  | 4 => ⟨false, none, true, 0, 0, two (.blocked W0) (.lockTrigger false), false⟩
  | 5 => ⟨false, some 2, true, 0, 0, two (.blocked W0) (.setHigh false), false⟩
  | 6 => ⟨true, none, true, 0, 0, two (.blocked W0) (.notify false), false⟩
  | 7 => ⟨true, none, true, 0, 0, two (.woken W0) .idle, false⟩
  | 8 => ⟨true, some 1, true, 0, 0, two (.test W0) .idle, false⟩
  | n + 9 => ⟨true, none, true, 0 + n, 0, two .idle .idle, false⟩

private def waitEv : Nat → Ev
  | 0 => .start 1 .wait
  | 3 => .start 2 .trigger
  | 5 => .level 2 true
  | 6 => .notifyAll 2
  | 8 => .result 1 .wait none
  | n => if n < 9 then .internal else .tick

private def waitExec : Exec false where
  st := waitSt
  ev := waitEv
  init := rfl
  step := by
    intro n
    match n with
    | 0 =>
        have := Step.start (init false) 1 .wait rfl
        rw [init_two, two_goto1] at this
        show Step (init false) _ _
        rw [init_two]
        exact this
    | 1 => have := Step.lockWait (waitSt 1) 1 .wait 0 rfl rfl rfl
           simp only [waitSt, two_goto1] at this; exact this
    | 2 => have := Step.testFalse (waitSt 2) 1 W0 rfl rfl rfl
           simp only [waitSt, two_goto1] at this; exact this
    | 3 => have := Step.start (waitSt 3) 2 .trigger rfl
           simp only [waitSt, two_goto2] at this; exact this
    | 4 => have := Step.lockTrigger (waitSt 4) 2 false rfl rfl rfl
           simp only [waitSt, two_goto2] at this; exact this
    | 5 => have := Step.setHigh (waitSt 5) 2 false rfl rfl
           simp only [waitSt, two_goto2] at this; exact this
    | 6 =>
        have := Step.notify (waitSt 6) 2 rfl rfl
        have he : ({ waitSt 6 with pc := fun k => if k = 2 then .idle else wake ((waitSt 6).pc k) } : St) = waitSt 7 := by
          simp only [waitSt]
          congr 1
          funext k
          simp only [two]
          by_cases h2 : k = 2
          · subst h2; rfl
          · by_cases h1 : k = 1
            · subst h1; rfl
            · simp only [h1, h2, if_false]; rfl
        rw [he] at this; exact this
    | 7 => have := Step.relock (waitSt 7) 1 W0 rfl rfl rfl
           simp only [waitSt, two_goto1] at this; exact this
    | 8 => have := Step.testTrue (waitSt 8) 1 W0 rfl rfl rfl
           simp only [waitSt, two_goto1] at this; exact this
    | n + 9 =>
        have := Step.tick (waitSt (n + 9)) (0 + (n + 1)) 0 (by show 0 + n ≤ 0 + (n + 1); omega)
        have he : waitEv (n + 9) = .tick := by unfold waitEv; simp
        rw [he]; exact this
  alive := by
    intro n
    match n with
    | 0 | 1 | 2 | 3 | 4 | 5 | 6 | 7 | 8 | n + 9 => rfl

/-- The hypotheses of `c109_standing_trigger` are met, while thread 1 waits; those of `c109_calls_return` are met
by thread 2 in trigger(). -/
example : ∃ (x : Exec false), Fair x ∧ (∀ m, 6 ≤ m → levelAfter false (x.events m) = true) ∧
    (x.st 6).pc 1 = .blocked W0 ∧ waiting ((x.st 5).pc 2) = false ∧ (x.st 5).pc 2 ≠ .idle := by
  refine ⟨waitExec, ⟨?_, ?_⟩, ?_, rfl, rfl, by intro h; cases h⟩
  · intro i n h
    obtain ⟨k, hk, h1⟩ := h (n + 9) (by omega)
    obtain ⟨j, rfl⟩ : ∃ j, k = j + 9 := ⟨k - 9, by omega⟩
    exfalso
    unfold Ready at h1
    have h2 : (waitExec.st (j + 9)).pc i = .idle := by
      show two .idle .idle i = .idle
      simp only [two]; repeat' split
      all_goals rfl
    rw [h2] at h1
    exact h1
  · intro i w d n h1 h2 h3
    exfalso
    have hi : ∀ p q, two p q i = .woken w → p = .woken w ∨ q = .woken w := by
      intro p q hp
      simp only [two] at hp
      split at hp
      · exact Or.inl hp
      · split at hp
        · exact Or.inr hp
        · cases hp
    match n with
    | 0 => cases h1
    | 1 | 2 | 3 | 4 | 5 | 6 | 8 => rcases hi _ _ h1 with h | h <;> cases h
    | n + 9 => rcases hi _ _ h1 with h | h <;> cases h
    | 7 =>
        rcases hi _ _ h1 with h | h
        · cases h; cases h2
        · cases h
  · intro m hm
    rw [← (inv_run (waitExec.run m)).level]
    match m with
    | 0 | 1 | 2 | 3 | 4 | 5 => omega
    | 6 | 7 | 8 | n + 9 => rfl

end Gul14.Trigger
