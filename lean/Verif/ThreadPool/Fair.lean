import Verif.ThreadPool.Witness
import Verif.ThreadPool.Handles
import Mathlib.Data.List.Nodup

/-!
# C108: infinite executions with a fair scheduler

Verif/ThreadPool/Live.lean shows what has happened when no thread can make a step any more, and that this
state is reached if nobody calls the pool.  Here the environment never rests: callers come and go, the
clock is set, workers wake up spuriously.  What is assumed is that the scheduler and the mutex are fair to
each single thread, and that the functions of the tasks return.
-/
namespace Gul14.Pool
open Spec.Pool

/-- An infinite execution.  (An execution that ends is continued by steps `tick` that set the clock to what
it shows.)  The interleavings of ThreadPool.cc:51-266. -/
structure Exec (cfg : Cfg) where
  st : Nat → St
  ev : Nat → Ev
  make : make cfg.threads cfg.cap = .ok cfg
  init : st 0 = init
  step : ∀ n, Step cfg (st n) (ev n) (st (n + 1))

/-- The events of the first `n` steps. -/
def Exec.events {cfg : Cfg} (x : Exec cfg) : Nat → List Ev
  | 0 => []
  | n + 1 => x.events n ++ [x.ev n]

/-- Worker `w` can go on by itself: it waits for a mutex that is free, or owns it, or its deadline has
passed.  A worker that waits for a notification or executes a task does not count. -/
def Ready (s : St) (w : Nat) : Prop :=
  match s.wpc w with
  | .want | .done _ => s.owner = none
  | .head | .scan _ => True
  | .sleep (some d) => d ≤ s.clock
  | .sleep none | .exec _ | .over => False

/-- Caller `c` is in a member function and can go on by itself. -/
def CallReady (cfg : Cfg) (s : St) (c : Who) : Prop :=
  match s.cpc c with
  | .call _ _ | .dtorLock => s.owner = none
  | .notify _ _ | .cancelLock _ | .stateLock _ | .check _ | .dtorNotify => True
  | .dtorJoin => ∀ w, w < cfg.threads → s.wpc w = .over
  | .idle | .aborted => False

/-- The assumptions about the scheduler, the mutex and the tasks: a thread that can go on again and again
goes on at some time; the function of a task returns at some time. -/
structure Fair {cfg : Cfg} (x : Exec cfg) : Prop where
  worker : ∀ w, w < cfg.threads → ∀ n, (∀ m, n ≤ m → ∃ k, m ≤ k ∧ Ready (x.st k) w) →
    ∃ k, n ≤ k ∧ (x.st (k + 1)).wpc w ≠ (x.st k).wpc w
  caller : ∀ c n, (∀ m, n ≤ m → ∃ k, m ≤ k ∧ CallReady cfg (x.st k) c) →
    ∃ k, n ≤ k ∧ (x.st (k + 1)).cpc c ≠ (x.st k).cpc c
  returns : ∀ w, w < cfg.threads → ∀ id n, (x.st n).wpc w = .exec id → ∃ k, n ≤ k ∧ (x.st k).wpc w ≠ .exec id

variable {cfg : Cfg} {es : List Ev} {s s' : St} {e : Ev}

/-- Fairness asks for nothing impossible: a worker that can go on has a step. -/
theorem ready_step {w : Nat} (hw : w < cfg.threads) (h : Ready s w) :
    ∃ e s', Step cfg s e s' ∧ s'.wpc w ≠ s.wpc w := by
  unfold Ready at h
  cases hp : s.wpc w with
  | want => rw [hp] at h; exact ⟨_, _, .lock s w hw hp h, by rw [setW_same]; simp⟩
  | done id => rw [hp] at h; exact ⟨_, _, .retire s w id hw hp h, by rw [setW_same]; simp⟩
  | head =>
      cases hs : s.shutdown with
      | true => exact ⟨_, _, .leave s w hw hp hs, by rw [setW_same]; simp⟩
      | false =>
          by_cases hq : s.pending = []
          · exact ⟨_, _, .wait s w hw hp hs hq, by rw [setW_same]; simp⟩
          · exact ⟨_, _, .read s w hw hp hs hq, by rw [setW_same]; simp⟩
  | scan now =>
      cases hq : pick now s.pending with
      | none => exact ⟨_, _, .waitUntil s w now hw hp hq, by rw [setW_same]; simp⟩
      | some tr => exact ⟨_, _, .start s w now tr.1 tr.2 hw hp hq, by rw [setW_same]; simp⟩
  | sleep d =>
      cases d with
      | none => rw [hp] at h; exact h.elim
      | some d => rw [hp] at h; exact ⟨_, _, .timeout s w d hw hp h, by rw [setW_same]; simp⟩
  | exec id => rw [hp] at h; exact h.elim
  | over => rw [hp] at h; exact h.elim

/-- The same for a caller. -/
theorem callReady_step {c : Who} (h : CallReady cfg s c) :
    ∃ e s', Step cfg s e s' ∧ s'.cpc c ≠ s.cpc c := by
  unfold CallReady at h
  cases hp : s.cpc c with
  | call p op =>
      rw [hp] at h
      refine ⟨_, _, .body s c p op hp h, ?_⟩
      obtain ⟨q, hq, h1⟩ := section_cpc cfg s c p op
      rw [hq, setC_same]
      rcases h1 with rfl | ⟨id, rfl, _⟩ | ⟨id, rfl⟩ <;> simp
  | dtorLock => rw [hp] at h; exact ⟨_, _, .dtorLock s c hp h, by rw [setC_same]; simp⟩
  | notify p id =>
      by_cases hs : ∃ w, w < cfg.threads ∧ isSleep (s.wpc w) = true
      · obtain ⟨w, hw, hs⟩ := hs
        exact ⟨_, _, .notifyOne s c p id w hp hw hs, by rw [setC_same]; simp⟩
      · refine ⟨_, _, .notifyNone s c p id hp ?_, by rw [setC_same]; simp⟩
        intro w hw
        cases h1 : isSleep (s.wpc w) with
        | false => rfl
        | true => exact absurd ⟨w, hw, h1⟩ hs
  | cancelLock id =>
      cases hd : s.dying with
      | false => exact ⟨_, _, .handleCancelLock s c id hp hd, by rw [setC_same]; simp⟩
      | true => exact ⟨_, _, .handleCancelThrow s c id hp hd, by rw [setC_same]; simp⟩
  | stateLock id =>
      cases hd : s.dying with
      | false => exact ⟨_, _, .handleStateLock s c id hp hd, by rw [setC_same]; simp⟩
      | true => exact ⟨_, _, .handleStateThrow s c id hp hd, by rw [setC_same]; simp⟩
  | check id => exact ⟨_, _, .handleCheck s c id hp, by rw [setC_same]; simp⟩
  | dtorNotify => exact ⟨_, _, .dtorNotify s c hp, by rw [setC_same]; simp⟩
  | dtorJoin => rw [hp] at h; exact ⟨_, _, .dtorJoin s c hp h, by rw [setC_same]; simp⟩
  | idle => rw [hp] at h; exact h.elim
  | aborted => rw [hp] at h; exact h.elim

theorem Exec.run (x : Exec cfg) (n : Nat) : Run cfg (x.events n) (x.st n) := by
  induction n with
  | zero => rw [x.init]; exact .init x.make
  | succ n ih => exact ih.step (x.step n)

/-! ### Sequences -/

/-- A sequence that does not stay where it is: the first change. -/
theorem first_change {α : Type} (f : Nat → α) {n : Nat} (h : ¬ ∀ k, n ≤ k → f k = f n) :
    ∃ k, n ≤ k ∧ f k = f n ∧ f (k + 1) ≠ f n := by
  by_cases hx : ∃ k, n ≤ k ∧ f k = f n ∧ f (k + 1) ≠ f n
  · exact hx
  · exfalso
    apply h
    intro k hk
    induction k with
    | zero => have : n = 0 := by omega
              rw [this]
    | succ k ih =>
        by_cases hn : n = k + 1
        · rw [hn]
        · have h1 := ih (by omega)
          by_cases h2 : f (k + 1) = f n
          · exact h2
          · exact absurd ⟨k, by omega, h1, h2⟩ hx

/-- A decreasing sequence of natural numbers is constant in the end. -/
theorem eventually_constant (f : Nat → Nat) (n : Nat) (h : ∀ k, n ≤ k → f (k + 1) ≤ f k) :
    ∃ N, n ≤ N ∧ ∀ k, N ≤ k → f k = f N := by
  generalize hv : f n = v
  induction v using Nat.strongRecOn generalizing n with
  | ind v ih =>
      by_cases hc : ∀ k, n ≤ k → f k = f n
      · exact ⟨n, Nat.le_refl n, hc⟩
      · obtain ⟨k, hk, h1, h2⟩ := first_change f hc
        have h3 := h k hk
        obtain ⟨N, hN, h4⟩ := ih (f (k + 1)) (by omega) (k + 1) (fun j hj => h j (by omega)) rfl
        exact ⟨N, by omega, h4⟩

/-- What holds for each thread from some moment on holds for all of them from some moment on. -/
theorem eventually_all {P : Nat → Nat → Prop} {T : Nat} (h : ∀ w, w < T → ∃ N, ∀ k, N ≤ k → P w k) :
    ∃ N, ∀ w, w < T → ∀ k, N ≤ k → P w k := by
  induction T with
  | zero => exact ⟨0, fun w hw => by omega⟩
  | succ T ih =>
      obtain ⟨N, hN⟩ := ih (fun w hw => h w (by omega))
      obtain ⟨M, hM⟩ := h T (by omega)
      refine ⟨max N M, fun w hw k hk => ?_⟩
      by_cases hT : w = T
      · subst hT; exact hM k (by omega)
      · exact hN w (by omega) k (by omega)

/-! ### The steps of one worker -/

/-- All ways in which the position of a worker changes. -/
inductive Moves (s : St) (e : Ev) (s' : St) (w : Nat) : Prop
  | lock (h : s.wpc w = .want) (h' : s'.wpc w = .head)
  | leave (h : s.wpc w = .head) (h' : s'.wpc w = .over) (hs : s.shutdown = true) (ho : s'.owner = none)
  | wait (h : s.wpc w = .head) (h' : s'.wpc w = .sleep none) (hs : s.shutdown = false) (hp : s.pending = [])
      (ho : s'.owner = none)
  | read (h : s.wpc w = .head) (h' : s'.wpc w = .scan s.clock)
  | waitUntil (now : Int) (h : s.wpc w = .scan now) (h' : s'.wpc w = .sleep (earliest s.pending))
      (hp : pick now s.pending = none) (ho : s'.owner = none)
  | start (now : Int) (id : Nat) (h : s.wpc w = .scan now) (h' : s'.wpc w = .exec id) (he : e = .started w id now)
      (ho : s'.owner = none)
  | finish (id : Nat) (h : s.wpc w = .exec id) (h' : s'.wpc w = .done id)
  | retire (id : Nat) (h : s.wpc w = .done id) (h' : s'.wpc w = .head) (he : e = .retired w id)
  | wake (h : isSleep (s.wpc w) = true) (h' : s'.wpc w = .want)

theorem worker_step (hs : Step cfg s e s') (w : Nat) : s'.wpc w = s.wpc w ∨ Moves s e s' w := by
  have key : ∀ {w' : Nat} {p : Wpc}, s'.wpc = (s.setW w' p).wpc → (w = w' → s'.wpc w = p → Moves s e s' w) →
      s'.wpc w = s.wpc w ∨ Moves s e s' w := by
    intro w' p h1 h2
    by_cases hw : w = w'
    · subst hw; exact Or.inr (h2 rfl (by rw [h1, setW_same]))
    · exact Or.inl (by rw [h1, setW_other hw])
  cases hs with
  | tick | begin | fail | notifyNone | handleCancel | handleCancelLock | handleCancelThrow | handleState
  | handleStateLock | handleStateThrow | handleCheck | handleComplete | handleNoResult | handleResult
  | release | dtorLock | dtorJoin | dtorSelf => exact Or.inl rfl
  | body c ptr op => exact Or.inl (by rw [section_wpc])
  | notifyOne c ptr id k hc hk hsl => exact key (w' := k) (p := .want) rfl (by rintro rfl h; exact .wake hsl h)
  | lock k hk hp ho => exact key (w' := k) (p := .head) rfl (by rintro rfl h; exact .lock hp h)
  | leave k hk hp hsd => exact key (w' := k) (p := .over) rfl (by rintro rfl h; exact .leave hp h hsd rfl)
  | wait k hk hp hsd hpe => exact key (w' := k) (p := .sleep none) rfl (by rintro rfl h; exact .wait hp h hsd hpe rfl)
  | read k hk hp hsd hpe => exact key (w' := k) (p := .scan s.clock) rfl (by rintro rfl h; exact .read hp h)
  | waitUntil k now hk hp hpi =>
      exact key (w' := k) (p := .sleep (earliest s.pending)) rfl (by rintro rfl h; exact .waitUntil now hp h hpi rfl)
  | start k now t rest hk hp hpi =>
      exact key (w' := k) (p := .exec t.id) rfl (by rintro rfl h; exact .start now t.id hp h rfl rfl)
  | finish k id o hk hp hc => exact key (w' := k) (p := .done id) rfl (by rintro rfl h; exact .finish id hp h)
  | retire k id hk hp ho => exact key (w' := k) (p := .head) rfl (by rintro rfl h; exact .retire id hp h rfl)
  | timeout k d hk hp hd => exact key (w' := k) (p := .want) rfl (by rintro rfl h; exact .wake (by rw [hp]; rfl) h)
  | spurious k hk hp => exact key (w' := k) (p := .want) rfl (by rintro rfl h; exact .wake hp h)
  | dtorNotify c hc =>
      show wake (s.wpc w) = s.wpc w ∨ _
      cases hp : s.wpc w with
      | sleep d => exact Or.inr (.wake (by rw [hp]; rfl) (show wake (s.wpc w) = .want by rw [hp]; rfl))
      | _ => exact Or.inl rfl

/-- A worker that could go on again and again if it stayed where it is does not stay there. -/
theorem Fair.leaves {x : Exec cfg} (hf : Fair x) {w n : Nat} (hw : w < cfg.threads) {p : Wpc}
    (hp : (x.st n).wpc w = p)
    (hr : ∀ m, n ≤ m → (∀ k, n ≤ k → (x.st k).wpc w = p) → ∃ k, m ≤ k ∧ Ready (x.st k) w) :
    ∃ k, n ≤ k ∧ (x.st k).wpc w = p ∧ (x.st (k + 1)).wpc w ≠ p := by
  subst hp
  apply first_change (fun k => (x.st k).wpc w)
  intro hall
  obtain ⟨k, hk, h1⟩ := hf.worker w hw n (fun m hm => hr m hm hall)
  exact h1 (by rw [hall (k + 1) (by omega), hall k hk])

theorem Fair.callLeaves {x : Exec cfg} (hf : Fair x) {c : Who} {n : Nat} {p : Cpc}
    (hp : (x.st n).cpc c = p)
    (hr : ∀ m, n ≤ m → (∀ k, n ≤ k → (x.st k).cpc c = p) → ∃ k, m ≤ k ∧ CallReady cfg (x.st k) c) :
    ∃ k, n ≤ k ∧ (x.st k).cpc c = p ∧ (x.st (k + 1)).cpc c ≠ p := by
  subst hp
  apply first_change (fun k => (x.st k).cpc c)
  intro hall
  obtain ⟨k, hk, h1⟩ := hf.caller c n (fun m hm => hr m hm hall)
  exact h1 (by rw [hall (k + 1) (by omega), hall k hk])

/-! ### The mutex is never kept for ever -/

theorem Fair.scan_ends {x : Exec cfg} (hf : Fair x) {w n : Nat} {now : Int} (h : (x.st n).wpc w = .scan now) :
    ∃ k, n ≤ k ∧ (x.st k).owner = none := by
  have hM := invM_run (x.run n)
  have hw : w < cfg.threads := by
    rcases Nat.lt_or_ge w cfg.threads with h1 | h1
    · exact h1
    · rw [hM.out w h1] at h; cases h
  obtain ⟨k, hk, h1, h2⟩ := hf.leaves hw h (fun m hm hall => ⟨m, Nat.le_refl m, by unfold Ready; rw [hall m hm]; trivial⟩)
  rcases worker_step (x.step k) w with h3 | h3
  · exact absurd (h3.trans h1) h2
  · cases h3 with
    | waitUntil now h h' hp ho => exact ⟨k + 1, by omega, ho⟩
    | start now id h h' he ho => exact ⟨k + 1, by omega, ho⟩
    | wake h h' => rw [h1] at h; cases h
    | lock h | leave h | wait h | read h | finish id h | retire id h => rw [h1] at h; cases h

theorem Fair.mutex_free {x : Exec cfg} (hf : Fair x) (n : Nat) : ∃ k, n ≤ k ∧ (x.st k).owner = none := by
  cases ho : (x.st n).owner with
  | none => exact ⟨n, Nat.le_refl n, ho⟩
  | some w =>
      have hM := invM_run (x.run n)
      have hh := (hM.own w).mpr ho
      have hw : w < cfg.threads := by
        rcases Nat.lt_or_ge w cfg.threads with h1 | h1
        · exact h1
        · rw [hM.out w h1] at hh; cases hh
      cases hp : (x.st n).wpc w with
      | scan now => exact hf.scan_ends hp
      | head =>
          obtain ⟨k, hk, h1, h2⟩ := hf.leaves hw hp
            (fun m hm hall => ⟨m, Nat.le_refl m, by unfold Ready; rw [hall m hm]; trivial⟩)
          rcases worker_step (x.step k) w with h3 | h3
          · exact absurd (h3.trans h1) h2
          · cases h3 with
            | leave h h' hs ho => exact ⟨k + 1, by omega, ho⟩
            | wait h h' hs hp ho => exact ⟨k + 1, by omega, ho⟩
            | read h h' =>
                obtain ⟨j, hj, h4⟩ := hf.scan_ends h'
                exact ⟨j, by omega, h4⟩
            | wake h h' => rw [h1] at h; cases h
            | lock h | waitUntil now h | start now id h | finish id h | retire id h => rw [h1] at h; cases h
      | want | sleep | exec | done | over => rw [hp] at hh; cases hh

/-- A worker that is neither asleep nor at its end goes on. -/
theorem Fair.goes_on {x : Exec cfg} (hf : Fair x) {w n : Nat} (hw : w < cfg.threads)
    (ha : awake ((x.st n).wpc w) = true) :
    ∃ k, n ≤ k ∧ (x.st k).wpc w = (x.st n).wpc w ∧ (x.st (k + 1)).wpc w ≠ (x.st n).wpc w := by
  cases hp : (x.st n).wpc w with
  | want =>
      refine hf.leaves hw hp (fun m hm hall => ?_)
      obtain ⟨k, hk, ho⟩ := hf.mutex_free m
      exact ⟨k, hk, by unfold Ready; rw [hall k (by omega)]; exact ho⟩
  | done id =>
      refine hf.leaves hw hp (fun m hm hall => ?_)
      obtain ⟨k, hk, ho⟩ := hf.mutex_free m
      exact ⟨k, hk, by unfold Ready; rw [hall k (by omega)]; exact ho⟩
  | head =>
      exact hf.leaves hw hp (fun m hm hall => ⟨m, Nat.le_refl m, by unfold Ready; rw [hall m hm]; trivial⟩)
  | scan now =>
      exact hf.leaves hw hp (fun m hm hall => ⟨m, Nat.le_refl m, by unfold Ready; rw [hall m hm]; trivial⟩)
  | exec id =>
      rw [← hp]
      apply first_change (fun k => (x.st k).wpc w)
      intro hall
      obtain ⟨k, hk, h1⟩ := hf.returns w hw id n hp
      exact h1 ((hall k hk).trans hp)
  | sleep d => rw [hp] at ha; cases ha
  | over => rw [hp] at ha; cases ha

/-! ### The place of a task in the queue -/

theorem idxOf_sublist [DecidableEq α] {l' l : List α} (hs : l'.Sublist l) (hn : l.Nodup) {t : α} (ht : t ∈ l') :
    l'.idxOf t ≤ l.idxOf t := by
  induction hs with
  | slnil => cases ht
  | @cons l1 l2 a hs ih =>
      rw [List.nodup_cons] at hn
      have ha : a ≠ t := by rintro rfl; exact hn.1 (hs.subset ht)
      rw [List.idxOf_cons_ne _ ha]
      have := ih hn.2 ht
      omega
  | @cons_cons l1 l2 a hs ih =>
      rw [List.nodup_cons] at hn
      by_cases ha : a = t
      · subst ha; rw [List.idxOf_cons_self]; omega
      · rw [List.idxOf_cons_ne _ ha, List.idxOf_cons_ne _ ha]
        rcases List.mem_cons.mp ht with h1 | h1
        · exact absurd h1.symm ha
        · have := ih hn.2 h1
          omega

/-- The queue only grows at its end. -/
theorem pending_step (hs : Step cfg s e s') :
    s'.pending.Sublist s.pending ∨ ∃ t, s'.pending = s.pending ++ [t] := by
  cases hs with
  | body c ptr op hc ho =>
      cases op <;> simp only [section_] <;> (repeat' split) <;>
        first
        | exact Or.inl (List.Sublist.refl _)
        | exact Or.inr ⟨_, rfl⟩
        | exact Or.inl (List.nil_sublist _)
        | exact Or.inl List.eraseP_sublist
  | start w now t rest hw hp hpi =>
      obtain ⟨a, b, h1, h2, _⟩ := pick_some hpi
      left
      show rest.Sublist s.pending
      rw [h1, h2]
      exact List.Sublist.append_left (List.sublist_cons_self t b) a
  | dtorJoin => exact Or.inl (List.nil_sublist _)
  | _ => exact Or.inl (List.Sublist.refl _)

/-- Starting a task moves up those that come later. -/
theorem start_moves {now : Int} {t x : Task} {l r : List Task} (hp : pick now l = some (x, r)) (hn : l.Nodup)
    (ht : t ∈ r) (hd : t.start ≤ now) : r.idxOf t < l.idxOf t := by
  obtain ⟨a, b, h1, h2, _, h4⟩ := pick_some hp
  have hta : t ∉ a := fun h => by have := h4 t h; omega
  subst h1 h2
  have hx : x ≠ t := by
    rintro rfl
    rcases List.mem_append.mp ht with h | h
    · exact hta h
    · have := List.nodup_append.mp hn
      have := (List.nodup_cons.mp this.2.1).1
      exact this h
  rw [List.idxOf_append_of_notMem hta, List.idxOf_append_of_notMem hta, List.idxOf_cons_ne _ hx]
  omega

/-- What is left of the way to the choice of a task. -/
def rank : Wpc → Nat
  | .sleep _ => 5
  | .exec _ => 4
  | .want | .done _ => 3
  | .head => 2
  | .scan _ => 1
  | .over => 0

/-- All ways in which the position of a caller changes. -/
inductive CallMoves (cfg : Cfg) (s : St) (e : Ev) (s' : St) (c : Who) : Prop
  | starts (h : s.cpc c = .idle) (h' : s'.cpc c ≠ .idle)
  | body (p : Bool) (op : Op) (h : s.cpc c = .call p op)
      (h' : s'.cpc c = .idle ∨ (∃ id, s'.cpc c = .notify p id) ∨ ∃ id, s'.cpc c = .check id)
  | notify (p : Bool) (id : Nat) (h : s.cpc c = .notify p id) (h' : s'.cpc c = .idle)
      (hw : (∃ w, w < cfg.threads ∧ s'.wpc w ≠ s.wpc w) ∨ ∀ w, w < cfg.threads → isSleep (s.wpc w) = false)
  | cancel (id : Nat) (h : s.cpc c = .cancelLock id) (h' : s'.cpc c = .idle ∨ s'.cpc c = .call true (.cancel id))
  | state (id : Nat) (h : s.cpc c = .stateLock id) (h' : s'.cpc c = .idle ∨ s'.cpc c = .call true (.state id))
  | check (id : Nat) (h : s.cpc c = .check id) (h' : s'.cpc c = .idle)
  | dtorLock (h : s.cpc c = .dtorLock) (h' : s'.cpc c = .dtorNotify)
  | dtorNotify (h : s.cpc c = .dtorNotify) (h' : s'.cpc c = .dtorJoin)
  | dtorJoin (h : s.cpc c = .dtorJoin) (h' : s'.cpc c = .idle) (he : e = .destroyed c)
  | dtorSelf (w : Nat) (hc : c = .task w) (h : s.cpc c = .dtorJoin) (h' : s'.cpc c = .aborted)

theorem caller_step (hs : Step cfg s e s') (c : Who) : s'.cpc c = s.cpc c ∨ CallMoves cfg s e s' c := by
  have key : ∀ {c' : Who} {q : Cpc}, s'.cpc = (s.setC c' q).cpc → (c = c' → s'.cpc c = q → CallMoves cfg s e s' c) →
      s'.cpc c = s.cpc c ∨ CallMoves cfg s e s' c := by
    intro c' q h1 h2
    by_cases hc : c = c'
    · subst hc; exact Or.inr (h2 rfl (by rw [h1, setC_same]))
    · exact Or.inl (by rw [h1, setC_other hc])
  cases hs with
  | tick | handleComplete | handleNoResult | handleResult | lock | leave | wait | read | waitUntil | start
  | finish | retire | timeout | spurious => exact Or.inl rfl
  | notifyOne k ptr i w hk hw hsl =>
      refine key (c' := k) (q := .idle) rfl ?_
      rintro rfl h
      refine .notify ptr i hk h (Or.inl ⟨w, hw, ?_⟩)
      show (s.setW w .want).wpc w ≠ _
      rw [setW_same]
      intro h1; rw [← h1] at hsl; cases hsl
  | notifyNone k ptr i hk hsl => exact key (c' := k) (q := .idle) rfl (by rintro rfl h; exact .notify ptr i hk h (Or.inr hsl))
  | begin k ptr op hi =>
      exact key (c' := k) (q := .call ptr op) rfl (by rintro rfl h; exact .starts hi (by rw [h]; simp))
  | body k ptr op hk ho =>
      obtain ⟨q, hq, h1⟩ := section_cpc cfg s k ptr op
      refine key hq ?_
      rintro rfl h
      refine .body ptr op hk ?_
      rw [h]
      rcases h1 with rfl | ⟨id, rfl, _⟩ | ⟨id, rfl⟩
      · exact Or.inl rfl
      · exact Or.inr (Or.inl ⟨id, rfl⟩)
      · exact Or.inr (Or.inr ⟨id, rfl⟩)
  | fail k ptr op hk => exact key (c' := k) (q := .idle) rfl (by rintro rfl h; exact .body ptr op hk (Or.inl h))
  | handleCancel k i hh hi =>
      exact key (c' := k) (q := .cancelLock i) rfl (by rintro rfl h; exact .starts hi (by rw [h]; simp))
  | handleCancelLock k i hk =>
      exact key (c' := k) (q := .call true (.cancel i)) rfl (by rintro rfl h; exact .cancel i hk (Or.inr h))
  | handleCancelThrow k i hk => exact key (c' := k) (q := .idle) rfl (by rintro rfl h; exact .cancel i hk (Or.inl h))
  | handleState k i hh hi =>
      exact key (c' := k) (q := .stateLock i) rfl (by rintro rfl h; exact .starts hi (by rw [h]; simp))
  | handleStateLock k i hk =>
      exact key (c' := k) (q := .call true (.state i)) rfl (by rintro rfl h; exact .state i hk (Or.inr h))
  | handleStateThrow k i hk => exact key (c' := k) (q := .idle) rfl (by rintro rfl h; exact .state i hk (Or.inl h))
  | handleCheck k i hk => exact key (c' := k) (q := .idle) rfl (by rintro rfl h; exact .check i hk h)
  | release k hi => exact key (c' := k) (q := .dtorLock) rfl (by rintro rfl h; exact .starts hi (by rw [h]; simp))
  | dtorLock k hk => exact key (c' := k) (q := .dtorNotify) rfl (by rintro rfl h; exact .dtorLock hk h)
  | dtorNotify k hk => exact key (c' := k) (q := .dtorJoin) rfl (by rintro rfl h; exact .dtorNotify hk h)
  | dtorJoin k hk => exact key (c' := k) (q := .idle) rfl (by rintro rfl h; exact .dtorJoin hk h rfl)
  | dtorSelf w hk => exact key (c' := .task w) (q := .aborted) rfl (by rintro rfl h; exact .dtorSelf w rfl hk h)

/-- A task does not stay in the queue for ever if it is due. -/
theorem Fair.not_forever {x : Exec cfg} (hf : Fair x) {n : Nat} {t : Task}
    (hq : ∀ m, n ≤ m → t ∈ (x.st m).pending) (hn : ∀ m, n ≤ m → (x.st m).pending.Nodup)
    (hd : ∀ m, n ≤ m → t.start ≤ (x.st m).clock) (hsd : ∀ m, n ≤ m → (x.st m).shutdown = false) : False := by
  -- from some moment on all readings of the clock are recent ones
  obtain ⟨n1, hn1, ho1⟩ := hf.mutex_free n
  have hscan : ∀ k, n1 ≤ k → ∀ w now, (x.st k).wpc w = .scan now → t.start ≤ now := by
    intro k hk
    induction k with
    | zero =>
        intro w now h
        have h0 : n1 = 0 := by omega
        rw [h0] at ho1
        have := (invM_run (x.run 0)).not_holds ho1 w
        rw [scan_holds h] at this; cases this
    | succ k ih =>
        intro w now h
        by_cases h0 : n1 = k + 1
        · rw [h0] at ho1
          have := (invM_run (x.run (k + 1))).not_holds ho1 w
          rw [scan_holds h] at this; cases this
        · rcases worker_step (x.step k) w with h1 | h1
          · exact ih (by omega) w now (by rw [← h1]; exact h)
          · cases h1 with
            | read h2 h3 =>
                rw [h3] at h
                injection h with h
                rw [← h]
                exact hd k (by omega)
            | lock _ h3 | leave _ h3 | wait _ h3 | waitUntil _ _ h3 | start _ _ _ h3 | finish _ _ h3 | retire _ _ h3
            | wake _ h3 => rw [h3] at h; cases h
  -- the place of the task
  have hpos : ∀ k, n1 ≤ k → (x.st (k + 1)).pending.idxOf t ≤ (x.st k).pending.idxOf t := by
    intro k hk
    rcases pending_step (x.step k) with h1 | ⟨y, h1⟩
    · exact idxOf_sublist h1 (hn k (by omega)) (hq (k + 1) (by omega))
    · rw [h1, List.idxOf_append_of_mem (hq k (by omega))]; exact Nat.le_refl _
  obtain ⟨n2, hn2, hc2⟩ := eventually_constant (fun k => (x.st k).pending.idxOf t) n1 hpos
  have hnostart : ∀ k, n2 ≤ k → ∀ w id now, x.ev k ≠ .started w id now := by
    intro k hk w id now he
    have hs := x.step k
    rw [he] at hs
    obtain ⟨u, rest, _, hp, hpi, _, hpe, _⟩ := started_cases hs
    have h1 := start_moves hpi (hn k (by omega)) (by rw [← hpe]; exact hq (k + 1) (by omega)) (hscan k (by omega) w now hp)
    rw [← hpe] at h1
    have h2 : (x.st k).pending.idxOf t = _ := hc2 k hk
    have h3 : (x.st (k + 1)).pending.idxOf t = _ := hc2 (k + 1) (by omega)
    omega
  -- every worker comes to rest
  have hrank : ∀ w k, n2 ≤ k → (x.st (k + 1)).wpc w = (x.st k).wpc w ∨
      rank ((x.st (k + 1)).wpc w) < rank ((x.st k).wpc w) := by
    intro w k hk
    rcases worker_step (x.step k) w with h1 | h1
    · exact Or.inl h1
    · right
      cases h1 with
      | lock h h' => rw [h, h']; decide
      | leave h h' => rw [h, h']; decide
      | wait h h' hs hp => have := hq k (by omega); rw [hp] at this; cases this
      | read h h' => rw [h, h']; show 1 < 2; decide
      | waitUntil now h h' hp =>
          have h1 := pick_none hp t (hq k (by omega))
          have h2 := hscan k (by omega) w now h
          omega
      | start now id h h' he => exact absurd he (hnostart k hk w id now)
      | finish id h h' => rw [h, h']; show 3 < 4; decide
      | retire id h h' he => rw [h, h']; show 2 < 3; decide
      | wake h h' =>
          rw [h']
          cases hp : (x.st k).wpc w <;> rw [hp] at h <;> first | (show 3 < 5; decide) | cases h
  have hrest : ∀ w, w < cfg.threads → ∃ N, ∀ k, N ≤ k → n2 ≤ k ∧ isSleep ((x.st k).wpc w) = true ∧
      (x.st (k + 1)).wpc w = (x.st k).wpc w := by
    intro w hw
    obtain ⟨N, hN, hc⟩ := eventually_constant (fun k => rank ((x.st k).wpc w)) n2
      (fun k hk => by rcases hrank w k hk with h | h; · rw [h]; exact Nat.le_refl _
                      · omega)
    have hstay : ∀ k, N ≤ k → (x.st (k + 1)).wpc w = (x.st k).wpc w := by
      intro k hk
      rcases hrank w k (by omega) with h | h
      · exact h
      · have h1 : rank ((x.st k).wpc w) = _ := hc k hk
        have h2 : rank ((x.st (k + 1)).wpc w) = _ := hc (k + 1) (by omega)
        omega
    refine ⟨N, fun k hk => ⟨by omega, ?_, hstay k hk⟩⟩
    cases ha : awake ((x.st k).wpc w) with
    | true =>
        obtain ⟨j, hj, h1, h2⟩ := hf.goes_on hw ha
        exact absurd ((hstay j (by omega)).trans h1) h2
    | false =>
        cases hp : (x.st k).wpc w with
        | sleep d => rfl
        | over =>
            have h1 := (invC_run (x.run k)).over w hp
            rw [hsd k (by omega)] at h1; cases h1
        | want | head | scan | exec | done => rw [hp] at ha; cases ha
  obtain ⟨N, hN⟩ := eventually_all hrest
  have hpos := threads_pos (x.run N)
  have hNn : n ≤ N := by have := (hN 0 hpos.1 N (Nat.le_refl N)).1; omega
  -- but somebody looks after the queue
  rcases attended (x.run N) (hsd N hNn) (fun h => by have := hq N hNn; rw [h] at this; cases this) with
    ⟨w, hw, ha⟩ | ⟨c, p, id, hc⟩ | ⟨w, d, hw, hsl, hdl⟩
  · have := (hN w hw N (Nat.le_refl N)).2.1
    cases hp : (x.st N).wpc w with
    | sleep d => rw [hp] at ha; cases ha
    | want | head | scan | exec | done | over => rw [hp] at this; cases this
  · obtain ⟨k, hk, h1, h2⟩ := hf.callLeaves hc (fun m hm hall =>
      ⟨m, Nat.le_refl m, by unfold CallReady; rw [hall m hm]; trivial⟩)
    rcases caller_step (x.step k) c with h3 | h3
    · exact h2 (h3.trans h1)
    · cases h3 with
      | notify p id h h' hw =>
          rcases hw with ⟨w, hw, h3⟩ | h3
          · exact h3 (hN w hw k hk).2.2
          · have := (hN 0 hpos.1 k hk).2.1
            rw [h3 0 hpos.1] at this; cases this
      | starts h | body _ _ h | cancel _ h | state _ h | check _ h | dtorLock h | dtorNotify h | dtorJoin h
      | dtorSelf _ _ h => rw [h1] at h; cases h
  · obtain ⟨k, hk, h1, h2⟩ := hf.leaves hw hsl (fun m hm hall => ⟨m, Nat.le_refl m, by
      unfold Ready; rw [hall m hm]
      have h3 := hdl t (hq N hNn)
      have h4 := hd m (by omega)
      show d ≤ _
      omega⟩)
    exact h2 ((hN w hw k hk).2.2.trans h1)

/-! ### C108 -/

theorem Exec.events_prefix (x : Exec cfg) {n m : Nat} (h : n ≤ m) : ∃ l, x.events m = x.events n ++ l := by
  induction m with
  | zero => have : n = 0 := by omega
            subst this; exact ⟨[], by simp⟩
  | succ m ih =>
      by_cases hn : n = m + 1
      · subst hn; exact ⟨[], by simp⟩
      · obtain ⟨l, hl⟩ := ih (by omega)
        exact ⟨l ++ [x.ev m], by simp [Exec.events, hl]⟩

/-- **C108.**  Every task that is due and stays so is started or cancelled, as long as no shutdown is
requested (and task ids are not exhausted before that). -/
theorem c108_due_task_starts {x : Exec cfg} (hf : Fair x) {n : Nat} {t : Task} (ht : t ∈ accepted (x.events n))
    (hd : ∀ m, n ≤ m → t.start ≤ clockAfter 0 (x.events m)) (hsd : ∀ m, shut (x.events m) = false) :
    ∃ m, n ≤ m ∧ (Small (x.events m) → ∃ f, fate (x.events m) t.id = some f ∧ f ≠ .unknown ∧ f ≠ .pending) := by
  by_cases hx : ∃ m, n ≤ m ∧ (Small (x.events m) → ∃ f, fate (x.events m) t.id = some f ∧ f ≠ .unknown ∧ f ≠ .pending)
  · exact hx
  · exfalso
    have hall : ∀ m, n ≤ m → Small (x.events m) ∧ t ∈ (x.st m).pending := by
      intro m hm
      have hsm : Small (x.events m) := by
        by_cases h : Small (x.events m)
        · exact h
        · exact absurd ⟨m, hm, fun h1 => absurd h1 h⟩ hx
      refine ⟨hsm, ?_⟩
      have hT := invT_run (x.run m) hsm
      obtain ⟨f, hf', _⟩ := hT.fates t.id
      have hta : t ∈ accepted (x.events m) := by
        obtain ⟨l, hl⟩ := x.events_prefix hm
        rw [hl]; exact accepted_prefix ht
      have hne := ((c50_never_lost (x.run m) hsm).1 t.id).mp (List.mem_map.mpr ⟨t, hta, rfl⟩)
      have hp : f = .pending := by
        by_cases h : f = .pending
        · exact h
        · exact absurd ⟨m, hm, fun _ => ⟨f, hf', fun h1 => hne (by rw [hf', h1]), h⟩⟩ hx
      rw [hT.queue]
      exact List.mem_filter.mpr ⟨hta, by rw [hf', hp]; rfl⟩
    exact hf.not_forever (fun m hm => (hall m hm).2) (fun m hm => List.Nodup.of_map _ (invT_run (x.run m) (hall m hm).1).pending_nodup)
      (fun m hm => by rw [(invC_run (x.run m)).clock]; exact hd m hm)
      (fun m _ => by rw [(invC_run (x.run m)).shut]; exact hsd m)

/-- A task that has been started finishes. -/
theorem Fair.finishes {x : Exec cfg} (hf : Fair x) {n : Nat} {id : Nat} (hsm : ∀ m, n ≤ m → Small (x.events m))
    (hl : Listed (fate (x.events n) id) = true) : ∃ m, n ≤ m ∧ ∃ o, fate (x.events m) id = some (.finished o) := by
  -- a worker whose task has returned takes note of that
  have hdone : ∀ w k, n ≤ k → w < cfg.threads → (x.st k).wpc w = .done id →
      ∃ m, n ≤ m ∧ ∃ o, fate (x.events m) id = some (.finished o) := by
    intro w k hk hw h
    obtain ⟨j, hj, h1, h2⟩ := hf.goes_on (n := k) hw (by rw [h]; rfl)
    rw [h] at h1 h2
    rcases worker_step (x.step j) w with h3 | h3
    · exact absurd (h3.trans h1) h2
    · cases h3 with
      | retire i h4 h' he =>
          rw [h1] at h4
          injection h4 with h4
          subst h4
          refine ⟨j + 1, by omega, ?_⟩
          obtain ⟨f, hf'⟩ := c50_life (x.run (j + 1)) (hsm (j + 1) (by omega)) id
          have h5 := hf'
          simp only [Exec.events] at h5
          rw [fate_append, he] at h5
          cases hg : fate (x.events j) id with
          | none => rw [hg] at h5; cases h5
          | some g =>
              rw [hg] at h5
              simp only [Option.bind_some, next, if_true] at h5
              cases g with
              | ended o => cases h5; exact ⟨o, hf'⟩
              | unknown | pending | running | finished | canceled => cases h5
      | wake h4 => rw [h1] at h4; cases h4
      | lock h4 | leave h4 | wait h4 | read h4 | waitUntil _ h4 | start _ _ h4 | finish _ h4 => rw [h1] at h4; cases h4
  have hT := invT_run (x.run n) (hsm n (Nat.le_refl n))
  rw [listed_iff hT, hT.running, (c50_never_lost (x.run n) (hsm n (Nat.le_refl n))).2.2.2] at hl
  obtain ⟨w, hw, h | h⟩ := hl
  · obtain ⟨j, hj, h1, h2⟩ := hf.goes_on (n := n) hw (by rw [h]; rfl)
    rw [h] at h1 h2
    rcases worker_step (x.step j) w with h3 | h3
    · exact absurd (h3.trans h1) h2
    · cases h3 with
      | finish i h4 h' =>
          rw [h1] at h4
          injection h4 with h4
          subst h4
          exact hdone w (j + 1) (by omega) hw h'
      | wake h4 => rw [h1] at h4; cases h4
      | lock h4 | leave h4 | wait h4 | read h4 | waitUntil _ h4 | start _ _ h4 | retire _ h4 => rw [h1] at h4; cases h4
  · exact hdone w n (Nat.le_refl n) hw h

/-- **C108.**  Every task that is due and stays so has finished or been cancelled at some time, as long as no
shutdown is requested. -/
theorem c108_due_task_finishes {x : Exec cfg} (hf : Fair x) {n : Nat} {t : Task} (ht : t ∈ accepted (x.events n))
    (hd : ∀ m, n ≤ m → t.start ≤ clockAfter 0 (x.events m)) (hsd : ∀ m, shut (x.events m) = false) :
    ∃ m, n ≤ m ∧ (Small (x.events m) →
      (∃ o, fate (x.events m) t.id = some (.finished o)) ∨ fate (x.events m) t.id = some .canceled) := by
  by_cases hsm : ∀ m, n ≤ m → Small (x.events m)
  · obtain ⟨m, hm, h⟩ := c108_due_task_starts hf ht hd hsd
    obtain ⟨f, h1, h2, h3⟩ := h (hsm m hm)
    cases f with
    | unknown => exact absurd rfl h2
    | pending => exact absurd rfl h3
    | finished o => exact ⟨m, hm, fun _ => Or.inl ⟨o, h1⟩⟩
    | canceled => exact ⟨m, hm, fun _ => Or.inr h1⟩
    | running =>
        obtain ⟨k, hk, o, ho⟩ := hf.finishes (fun j hj => hsm j (by omega)) (n := m) (id := t.id) (by rw [h1]; rfl)
        exact ⟨k, by omega, fun _ => Or.inl ⟨o, ho⟩⟩
    | ended o =>
        obtain ⟨k, hk, o, ho⟩ := hf.finishes (fun j hj => hsm j (by omega)) (n := m) (id := t.id) (by rw [h1]; rfl)
        exact ⟨k, by omega, fun _ => Or.inl ⟨o, ho⟩⟩
  · by_cases hx : ∃ m, n ≤ m ∧ ¬ Small (x.events m)
    · obtain ⟨m, hm, h⟩ := hx
      exact ⟨m, hm, fun h1 => absurd h1 h⟩
    · exact absurd (fun m hm => by
        by_cases h : Small (x.events m)
        · exact h
        · exact absurd ⟨m, hm, h⟩ hx) hsm

/-- What is left of a call. -/
def callRank : Cpc → Nat
  | .cancelLock _ | .stateLock _ => 3
  | .call _ _ => 2
  | .notify _ _ | .check _ => 1
  | _ => 0

/-- **C108.**  Every call of a member function of the pool or of a task handle returns or throws: the calling
thread is outside of the pool again at some time.  (The destructor is treated below; get_result waits for the
task.) -/
theorem c108_calls_return {x : Exec cfg} (hf : Fair x) (c : Who) (n : Nat)
    (hc : inDtor ((x.st n).cpc c) = false) : ∃ m, n ≤ m ∧ (x.st m).cpc c = .idle := by
  generalize hr : callRank ((x.st n).cpc c) = r
  induction r using Nat.strongRecOn generalizing n with
  | ind r ih =>
      have go : ∀ k, n ≤ k → inDtor ((x.st (k + 1)).cpc c) = false → callRank ((x.st (k + 1)).cpc c) < r →
          ∃ m, n ≤ m ∧ (x.st m).cpc c = .idle := by
        intro k hk h1 h2
        obtain ⟨m, hm, h3⟩ := ih _ h2 (k + 1) h1 rfl
        exact ⟨m, by omega, h3⟩
      have left : (∀ m, n ≤ m → (∀ k, n ≤ k → (x.st k).cpc c = (x.st n).cpc c) → ∃ k, m ≤ k ∧ CallReady cfg (x.st k) c) →
          ∃ k, n ≤ k ∧ (x.st k).cpc c = (x.st n).cpc c ∧ CallMoves cfg (x.st k) (x.ev k) (x.st (k + 1)) c := by
        intro h
        obtain ⟨k, hk, h1, h2⟩ := hf.callLeaves rfl h
        rcases caller_step (x.step k) c with h3 | h3
        · exact absurd (h3.trans h1) h2
        · exact ⟨k, hk, h1, h3⟩
      cases hp : (x.st n).cpc c with
      | idle => exact ⟨n, Nat.le_refl n, hp⟩
      | call p op =>
          rw [hp] at hr left
          obtain ⟨k, hk, h1, h2⟩ := left (fun m hm hall => by
            obtain ⟨k, hk, ho⟩ := hf.mutex_free m
            exact ⟨k, hk, by unfold CallReady; rw [hall k (by omega)]; exact ho⟩)
          cases h2 with
          | body _ _ h h' =>
              rcases h' with h' | ⟨id, h'⟩ | ⟨id, h'⟩ <;>
                exact go k hk (by rw [h']; rfl) (by rw [h', ← hr]; simp [callRank])
          | starts h | notify _ _ h | cancel _ h | state _ h | check _ h | dtorLock h | dtorNotify h | dtorJoin h
          | dtorSelf _ _ h => rw [h1] at h; cases h
      | notify p id =>
          rw [hp] at hr left
          obtain ⟨k, hk, h1, h2⟩ := left (fun m hm hall => ⟨m, Nat.le_refl m, by unfold CallReady; rw [hall m hm]; trivial⟩)
          cases h2 with
          | notify _ _ h h' => exact ⟨k + 1, by omega, h'⟩
          | starts h | body _ _ h | cancel _ h | state _ h | check _ h | dtorLock h | dtorNotify h | dtorJoin h
          | dtorSelf _ _ h => rw [h1] at h; cases h
      | cancelLock id =>
          rw [hp] at hr left
          obtain ⟨k, hk, h1, h2⟩ := left (fun m hm hall => ⟨m, Nat.le_refl m, by unfold CallReady; rw [hall m hm]; trivial⟩)
          cases h2 with
          | cancel _ h h' =>
              rcases h' with h' | h' <;> exact go k hk (by rw [h']; rfl) (by rw [h', ← hr]; simp [callRank])
          | starts h | body _ _ h | notify _ _ h | state _ h | check _ h | dtorLock h | dtorNotify h | dtorJoin h
          | dtorSelf _ _ h => rw [h1] at h; cases h
      | stateLock id =>
          rw [hp] at hr left
          obtain ⟨k, hk, h1, h2⟩ := left (fun m hm hall => ⟨m, Nat.le_refl m, by unfold CallReady; rw [hall m hm]; trivial⟩)
          cases h2 with
          | state _ h h' =>
              rcases h' with h' | h' <;> exact go k hk (by rw [h']; rfl) (by rw [h', ← hr]; simp [callRank])
          | starts h | body _ _ h | notify _ _ h | cancel _ h | check _ h | dtorLock h | dtorNotify h | dtorJoin h
          | dtorSelf _ _ h => rw [h1] at h; cases h
      | check id =>
          rw [hp] at hr left
          obtain ⟨k, hk, h1, h2⟩ := left (fun m hm hall => ⟨m, Nat.le_refl m, by unfold CallReady; rw [hall m hm]; trivial⟩)
          cases h2 with
          | check _ h h' => exact ⟨k + 1, by omega, h'⟩
          | starts h | body _ _ h | notify _ _ h | cancel _ h | state _ h | dtorLock h | dtorNotify h | dtorJoin h
          | dtorSelf _ _ h => rw [h1] at h; cases h
      | dtorLock => rw [hp] at hc; cases hc
      | dtorNotify => rw [hp] at hc; cases hc
      | dtorJoin => rw [hp] at hc; cases hc
      | aborted => rw [hp] at hc; cases hc

theorem shutdown_stays (hs : Step cfg s e s') (h : s.shutdown = true) : s'.shutdown = true := by
  cases hs with
  | body c ptr op => rw [section_shutdown]; exact h
  | dtorLock => rfl
  | _ => exact h

/-- After shutdown was requested every worker ends, unless it is asleep. -/
theorem Fair.ends {x : Exec cfg} (hf : Fair x) {w : Nat} (hw : w < cfg.threads) (n : Nat)
    (hsd : (x.st n).shutdown = true) (ha : isSleep ((x.st n).wpc w) = false) :
    ∃ m, n ≤ m ∧ ∀ k, m ≤ k → (x.st k).wpc w = .over := by
  generalize hr : rank ((x.st n).wpc w) = r
  induction r using Nat.strongRecOn generalizing n with
  | ind r ih =>
      have stays : ∀ k, n ≤ k → (x.st k).shutdown = true := by
        intro k hk
        induction k with
        | zero => have : n = 0 := by omega
                  rw [this] at hsd; exact hsd
        | succ k ihk =>
            by_cases h : n = k + 1
            · rw [h] at hsd; exact hsd
            · exact shutdown_stays (x.step k) (ihk (by omega))
      by_cases hov : (x.st n).wpc w = .over
      · refine ⟨n, Nat.le_refl n, fun k hk => ?_⟩
        induction k with
        | zero => have : n = 0 := by omega
                  rw [this] at hov; exact hov
        | succ k ihk =>
            by_cases h : n = k + 1
            · rw [h] at hov; exact hov
            · have h1 := ihk (by omega)
              rcases worker_step (x.step k) w with h3 | h3
              · exact h3.trans h1
              · cases h3 with
                | wake h4 => rw [h1] at h4; cases h4
                | lock h4 | leave h4 | wait h4 | read h4 | waitUntil _ h4 | start _ _ h4 | finish _ h4 | retire _ h4 =>
                    rw [h1] at h4; cases h4
      · have hawake : awake ((x.st n).wpc w) = true := by
          cases hp : (x.st n).wpc w <;> rw [hp] at ha hov <;> first | rfl | (cases ha; done) | exact absurd rfl hov
        obtain ⟨k, hk, h1, h2⟩ := hf.goes_on hw hawake
        rcases worker_step (x.step k) w with h3 | h3
        · exact absurd (h3.trans h1) h2
        · have hscan : ∀ now, (x.st k).wpc w ≠ .scan now := by
            intro now h
            have h4 := ((invM_run (x.run k)).scan w now h).1
            rw [stays k hk] at h4; cases h4
          have go : isSleep ((x.st (k + 1)).wpc w) = false → rank ((x.st (k + 1)).wpc w) < rank ((x.st k).wpc w) →
              ∃ m, n ≤ m ∧ ∀ k, m ≤ k → (x.st k).wpc w = .over := by
            intro h4 h5
            obtain ⟨m, hm, h6⟩ := ih _ (by rw [← hr, ← h1]; exact h5) (k + 1) (stays (k + 1) (by omega)) h4 rfl
            exact ⟨m, by omega, h6⟩
          cases h3 with
          | lock h h' => exact go (by rw [h']; rfl) (by rw [h, h']; decide)
          | leave h h' => exact go (by rw [h']; rfl) (by rw [h, h']; decide)
          | wait h h' hs => rw [stays k hk] at hs; cases hs
          | read h h' =>
              have h4 := ((invM_run (x.run (k + 1))).scan w _ h').1
              rw [stays (k + 1) (by omega)] at h4; cases h4
          | waitUntil now h => exact absurd h (hscan now)
          | start now id h => exact absurd h (hscan now)
          | finish id h h' => exact go (by rw [h']; rfl) (by rw [h, h']; show 3 < 4; decide)
          | retire id h h' => exact go (by rw [h']; rfl) (by rw [h, h']; show 2 < 3; decide)
          | wake h h' => rw [h1] at h; rw [h] at ha; cases ha

theorem destroyed_event (h : Run cfg es s) (hd : s.destroyed = true) : ∃ c, Ev.destroyed c ∈ es := by
  induction h with
  | init => cases hd
  | @step es s s' e h hs ih =>
      have keep : s.destroyed = true → ∃ c, Ev.destroyed c ∈ es ++ [e] := by
        intro h1
        obtain ⟨c, hc⟩ := ih h1
        exact ⟨c, List.mem_append.mpr (Or.inl hc)⟩
      cases hs with
      | dtorJoin => exact ⟨_, List.mem_append.mpr (Or.inr (List.mem_singleton.mpr rfl))⟩
      | body c ptr op => exact keep (by simpa [section_destroyed] using hd)
      | _ => exact keep hd

theorem destroyed_release {c : Who} (h : Run cfg es s) (hd : Ev.destroyed c ∈ es) : Ev.release c ∈ es := by
  induction h with
  | init => cases hd
  | @step es s s' e h hs ih =>
      refine List.mem_append.mpr (Or.inl ?_)
      rcases List.mem_append.mp hd with h1 | h1
      · exact ih h1
      · rw [← List.mem_singleton.mp h1] at hs
        exact dtor_release h (by rw [(destroyed_cases hs).1]; rfl)

/-- **C108.**  If an outside thread releases the last shared pointer to the pool, the destructor ends. -/
theorem c108_destruction_ends {x : Exec cfg} (hf : Fair x) {n k : Nat} (h : Ev.release (.ext k) ∈ x.events n) :
    ∃ m, n ≤ m ∧ Ev.destroyed (.ext k) ∈ x.events m := by
  -- the last step
  have join : ∀ n, (x.st n).cpc (.ext k) = .dtorJoin → ∃ m, n ≤ m ∧ Ev.destroyed (.ext k) ∈ x.events m := by
    intro n hp
    have hC := invC_run (x.run n)
    have hsd := hC.after _ (Or.inr (Or.inl hp))
    have hov : ∀ w, w < cfg.threads → ∃ N, ∀ j, N ≤ j → (x.st j).wpc w = .over := by
      intro w hw
      obtain ⟨m, _, hm⟩ := hf.ends hw n hsd (by
        cases hs : isSleep ((x.st n).wpc w) with
        | false => rfl
        | true =>
            obtain ⟨c, hc⟩ := hC.sleep hsd ⟨w, hs⟩
            have := hC.one c (.ext k) (by rw [hc]; rfl) (by rw [hp]; rfl)
            subst this
            rw [hp] at hc; cases hc)
      exact ⟨m, hm⟩
    obtain ⟨N, hN⟩ := eventually_all hov
    obtain ⟨j, hj, h1, h2⟩ := hf.callLeaves hp (fun m hm hall => ⟨max m N, by omega, by
      unfold CallReady; rw [hall (max m N) (by omega)]
      exact fun w hw => hN w hw _ (by omega)⟩)
    rcases caller_step (x.step j) (.ext k) with h3 | h3
    · exact absurd (h3.trans h1) h2
    · cases h3 with
      | dtorJoin h h' he => exact ⟨j + 1, by omega, by simp [Exec.events, he]⟩
      | dtorSelf w hc => cases hc
      | starts h | body _ _ h | notify _ _ h | cancel _ h | state _ h | check _ h | dtorLock h | dtorNotify h =>
          rw [h1] at h; cases h
  have notify : ∀ n, (x.st n).cpc (.ext k) = .dtorNotify → ∃ m, n ≤ m ∧ Ev.destroyed (.ext k) ∈ x.events m := by
    intro n hp
    obtain ⟨j, hj, h1, h2⟩ := hf.callLeaves hp
      (fun m hm hall => ⟨m, Nat.le_refl m, by unfold CallReady; rw [hall m hm]; trivial⟩)
    rcases caller_step (x.step j) (.ext k) with h3 | h3
    · exact absurd (h3.trans h1) h2
    · cases h3 with
      | dtorNotify h h' =>
          obtain ⟨m, hm, h4⟩ := join (j + 1) h'
          exact ⟨m, by omega, h4⟩
      | starts h | body _ _ h | notify _ _ h | cancel _ h | state _ h | check _ h | dtorLock h | dtorJoin h
      | dtorSelf _ _ h => rw [h1] at h; cases h
  have hC := invC_run (x.run n)
  cases hd : (x.st n).destroyed with
  | true =>
      refine ⟨n, Nat.le_refl n, ?_⟩
      obtain ⟨c, hc⟩ := destroyed_event (x.run n) hd
      have := release_unique (x.run n) (destroyed_release (x.run n) hc) h
      rw [← this]; exact hc
  | false =>
      obtain ⟨c, hc⟩ := hC.prog ((dying_iff (x.run n)).mpr ⟨_, h⟩) hd
      have := release_unique (x.run n) (dtor_release (x.run n) hc) h
      subst this
      cases hp : (x.st n).cpc (.ext k) with
      | dtorJoin => exact join n hp
      | dtorNotify => exact notify n hp
      | dtorLock =>
          obtain ⟨j, hj, h1, h2⟩ := hf.callLeaves hp (fun m hm hall => by
            obtain ⟨i, hi, ho⟩ := hf.mutex_free m
            exact ⟨i, hi, by unfold CallReady; rw [hall i (by omega)]; exact ho⟩)
          rcases caller_step (x.step j) (.ext k) with h3 | h3
          · exact absurd (h3.trans h1) h2
          · cases h3 with
            | dtorLock h h' =>
                obtain ⟨m, hm, h4⟩ := notify (j + 1) h'
                exact ⟨m, by omega, h4⟩
            | starts h | body _ _ h | notify _ _ h | cancel _ h | state _ h | check _ h | dtorNotify h | dtorJoin h
            | dtorSelf _ _ h => rw [h1] at h; cases h
      | aborted =>
          obtain ⟨⟨w, hw⟩, _⟩ := aborted_task (x.run n) hp
          cases hw
      | idle => rw [hp] at hc; cases hc
      | call => rw [hp] at hc; cases hc
      | notify => rw [hp] at hc; cases hc
      | cancelLock => rw [hp] at hc; cases hc
      | stateLock => rw [hp] at hc; cases hc
      | check => rw [hp] at hc; cases hc

/-- **C108.**  get_result does not block for ever: the future of a task that is due and stays so becomes ready. -/
theorem c108_result_available {x : Exec cfg} (hf : Fair x) {n : Nat} {t : Task} (ht : t ∈ accepted (x.events n))
    (hd : ∀ m, n ≤ m → t.start ≤ clockAfter 0 (x.events m)) (hsd : ∀ m, shut (x.events m) = false) :
    ∃ m, n ≤ m ∧ (Small (x.events m) → ((x.st m).fut t.id).ready = true) := by
  obtain ⟨m, hm, h⟩ := c108_due_task_finishes hf ht hd hsd
  refine ⟨m, hm, fun hsm => ?_⟩
  obtain ⟨f, h1, h2⟩ := (invT_run (x.run m) hsm).fates t.id
  rw [h2.fut, ready_iff]
  rcases h hsm with ⟨o, h3⟩ | h3 <;> rw [h3] at h1 <;> cases h1 <;> rfl

/-! ### Such executions exist -/

/-- A finite execution continued for ever without anything happening. -/
theorem exec_of_run (h : Run cfg es s) :
    ∃ x : Exec cfg, x.events es.length = es ∧ ∀ m, es.length ≤ m → x.st m = s := by
  induction h with
  | init h =>
      exact ⟨⟨fun _ => init, fun _ => .tick init.clock, h, rfl, fun _ => .tick init init.clock⟩, rfl, fun _ _ => rfl⟩
  | @step es s s' e h hs ih =>
      obtain ⟨x, hx, hst⟩ := ih
      let y : Exec cfg :=
        { st := fun n => if n ≤ es.length then x.st n else s'
          ev := fun n => if n < es.length then x.ev n else if n = es.length then e else .tick s'.clock
          make := x.make
          init := by simp [x.init]
          step := by
            intro n
            by_cases h1 : n < es.length
            · have h2 : n ≤ es.length := by omega
              have h3 : n + 1 ≤ es.length := by omega
              simp only [h1, h2, h3, if_true]
              exact x.step n
            · by_cases h2 : n = es.length
              · subst h2
                simp only [Nat.le_refl, if_true, Nat.lt_irrefl, if_false, Nat.not_succ_le_self]
                rw [hst es.length (Nat.le_refl _)]; exact hs
              · have h3 : ¬ n ≤ es.length := by omega
                have h4 : ¬ n + 1 ≤ es.length := by omega
                simp only [h1, h2, h3, h4, if_false]
                exact .tick s' s'.clock }
      have hpre : ∀ n, n ≤ es.length → y.events n = x.events n := by
        intro n
        induction n with
        | zero => intro _; rfl
        | succ n ihn =>
            intro hn
            have h1 : y.ev n = x.ev n := by
              show (if n < es.length then x.ev n else _) = _
              rw [if_pos (by omega)]
            simp only [Exec.events]
            rw [ihn (by omega), h1]
      refine ⟨y, ?_, ?_⟩
      · rw [List.length_append]
        show y.events es.length ++ [y.ev es.length] = _
        rw [hpre _ (Nat.le_refl _), hx]
        have : y.ev es.length = e := by
          show (if es.length < es.length then _ else if es.length = es.length then e else _) = e
          simp
        rw [this]
      · intro m hm
        rw [List.length_append, List.length_singleton] at hm
        show (if m ≤ es.length then _ else s') = s'
        rw [if_neg (by omega)]

/-- It is fair if every worker has ended or sleeps without a deadline and no call is in progress. -/
theorem fair_of_rest {x : Exec cfg} {N : Nat} (hN : ∀ m, N ≤ m → x.st m = s)
    (hw : ∀ w, w < cfg.threads → s.wpc w = .over ∨ s.wpc w = .sleep none)
    (hc : ∀ c, s.cpc c = .idle) : Fair x := by
  refine ⟨?_, ?_, ?_⟩
  · intro w hwt n h
    obtain ⟨k, hk, h1⟩ := h (max n N) (by omega)
    unfold Ready at h1
    rw [hN k (by omega)] at h1
    rcases hw w hwt with h2 | h2 <;> rw [h2] at h1 <;> exact h1.elim
  · intro c n h
    obtain ⟨k, hk, h1⟩ := h (max n N) (by omega)
    unfold CallReady at h1
    rw [hN k (by omega), hc c] at h1
    exact h1.elim
  · intro w hwt id n _
    refine ⟨max n N, by omega, ?_⟩
    rw [hN _ (by omega)]
    rcases hw w hwt with h2 | h2 <;> rw [h2] <;> simp

private abbrev u0 : Who := .ext 0
private abbrev A : List UInt8 := [65]

/-- A fair execution in which a task is added and is due from then on; it also satisfies the other hypotheses. -/
example : ∃ (cfg : Cfg) (x : Exec cfg) (n : Nat) (t : Task), Fair x ∧ t ∈ accepted (x.events n) ∧
    (∀ m, n ≤ m → t.start ≤ clockAfter 0 (x.events m)) ∧ ∀ m, shut (x.events m) = false := by
  obtain ⟨es, s, hr, hL, h1, h2, h3, h4, h5, h6⟩ := play_exists (cfg := ⟨2, 4⟩) (L := [u0])
    [.worker 0, .worker 0, .worker 1, .worker 1, .begin u0 true (.add A (-5)), .body u0, .notifyOne u0 1,
      .worker 1, .worker 1, .worker 1, .finish 1 (.value 7), .worker 1, .worker 1]
    (P := fun es s => (⟨0, A, -5⟩ : Task) ∈ accepted es ∧ s.shutdown = false ∧ s.wpc 0 = .sleep none ∧
      s.wpc 1 = .sleep none ∧ s.cpc u0 = .idle ∧ s.clock = 0)
    (by decide +kernel)
  obtain ⟨x, hx, hst⟩ := exec_of_run hr
  have hsd : ∀ m, (x.st m).shutdown = true → ∀ k, m ≤ k → (x.st k).shutdown = true := by
    intro m hm k hk
    induction k with
    | zero => have : m = 0 := by omega
              rw [this] at hm; exact hm
    | succ k ih =>
        by_cases h : m = k + 1
        · rw [h] at hm; exact hm
        · exact shutdown_stays (x.step k) (ih (by omega))
  refine ⟨⟨2, 4⟩, x, es.length, ⟨0, A, -5⟩, fair_of_rest hst ?_ ?_, by rw [hx]; exact h1, ?_, ?_⟩
  · intro w hw
    have : w = 0 ∨ w = 1 := by have : w < 2 := hw; omega
    rcases this with rfl | rfl
    · exact Or.inr h3
    · exact Or.inr h4
  · intro c
    by_cases hc : c ∈ [u0]
    · rw [List.mem_singleton.mp hc]; exact h5
    · exact hL c hc
  · intro m hm
    rw [← (invC_run (x.run m)).clock, hst m hm, h6]; decide
  · intro m
    rw [← (invC_run (x.run m)).shut]
    cases h : (x.st m).shutdown with
    | false => rfl
    | true =>
        have := hsd m h (max m es.length) (by omega)
        rw [hst _ (by omega), h2] at this; cases this

/-- A fair execution in which the last shared pointer is released while a delayed task waits. -/
example : ∃ (cfg : Cfg) (x : Exec cfg) (n : Nat), Fair x ∧ Ev.release (.ext 0) ∈ x.events n := by
  obtain ⟨es, s, hr, hL, h1, h2, h3, h4⟩ := play_exists (cfg := ⟨2, 4⟩) (L := [u0])
    [.worker 0, .worker 0, .worker 1, .worker 1, .begin u0 true (.add A 5), .body u0, .notifyOne u0 1,
      .worker 1, .worker 1, .worker 1, .release u0, .dtor u0, .dtor u0, .worker 0, .worker 0, .worker 1, .worker 1, .dtor u0]
    (P := fun es s => Ev.release (.ext 0) ∈ es ∧ s.wpc 0 = .over ∧ s.wpc 1 = .over ∧ s.cpc u0 = .idle)
    (by decide +kernel)
  obtain ⟨x, hx, hst⟩ := exec_of_run hr
  refine ⟨⟨2, 4⟩, x, es.length, fair_of_rest hst ?_ ?_, by rw [hx]; exact h1⟩
  · intro w hw
    have : w = 0 ∨ w = 1 := by have : w < 2 := hw; omega
    rcases this with rfl | rfl
    · exact Or.inl h2
    · exact Or.inl h3
  · intro c
    by_cases hc : c ∈ [u0]
    · rw [List.mem_singleton.mp hc]; exact h4
    · exact hL c hc

end Gul14.Pool
