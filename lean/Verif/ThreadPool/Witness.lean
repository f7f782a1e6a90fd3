import Verif.ThreadPool.Conserve

/-! # ThreadPool: counterexamples and examples -/
namespace Gul14.Pool
open Spec.Pool

/-- A computed execution with a given last event. -/
theorem play_last {cfg : Cfg} {L : List Who} (ms : List Move) (x : Ev) {P : List Ev → Prop} [∀ es, Decidable (P es)]
    (h : (match play cfg L ms with | some (es, _) => decide (es.getLast? = some x ∧ P es.dropLast) | none => false) = true) :
    ∃ es s s', Run cfg es s ∧ Step cfg s x s' ∧ P es := by
  split at h
  · rename_i es s hp
    obtain ⟨h1, h2⟩ := decide_eq_true_eq.mp h
    have hr := (play_run hp).1
    have he : es = es.dropLast ++ [x] := by
      rcases List.eq_nil_or_concat es with rfl | ⟨l, y, rfl⟩
      · cases h1
      · simp at h1 ⊢; exact h1
    obtain ⟨s1, s2, h3, h4⟩ := run_split hr (a := es.dropLast) (e := x) (b := []) he
    exact ⟨_, s1, s2, h3, h4, h2⟩
  · cases h

instance (es : List Ev) : Decidable (Small es) := inferInstanceAs (Decidable (_ ≤ _))

private def isTick : Ev → Bool
  | .tick _ => true
  | _ => false

private abbrev e0 : Who := .ext 0
private abbrev A : List UInt8 := [65]
private abbrev B : List UInt8 := [66]

/-- Both workers go to sleep. -/
private def rest2 : List Move := [.worker 0, .worker 0, .worker 1, .worker 1]

private def addMoves (c : Who) (name : List UInt8) (start : Int) : List Move :=
  [.begin c (isExt c) (.add name start), .body c]

/-- **C55, violated.**  Two workers, a delayed task X and a task Y that is due: the worker that waits for X is
woken for Y and executes it; X becomes due while the other worker sleeps without a deadline, no worker is going
to look at the queue and no call is in progress. -/
theorem c55_delayed_violated : ∃ cfg es s, cfg.threads = 2 ∧ Run cfg es s ∧ Small es ∧ Monotone es ∧ shut es = false ∧
    (∃ t, t ∈ queue es ∧ t.start ≤ s.clock) ∧ s.wpc 1 = .sleep none ∧
    (∀ w, w < cfg.threads → looks (s.wpc w) = false) ∧ ∀ c, s.cpc c = .idle := by
  obtain ⟨es, s, hr, hL, h1, h2, h3, h4, h5, h6, h7⟩ := play_exists (cfg := ⟨2, 4⟩) (L := [e0])
    (rest2 ++ addMoves e0 A 10 ++ [.notifyOne e0 0, .worker 0, .worker 0, .worker 0] ++ addMoves e0 B 0 ++
      [.notifyOne e0 0, .worker 0, .worker 0, .worker 0, .tick 10])
    (P := fun es s => Small es ∧ shut es = false ∧ ((queue es).any fun t => decide (t.start ≤ s.clock)) = true ∧ s.wpc 1 = .sleep none ∧
      (looks (s.wpc 0) = false ∧ looks (s.wpc 1) = false) ∧ s.cpc e0 = .idle ∧
      es = es.dropLast ++ [Ev.tick 10] ∧ (es.dropLast.all fun e => !isTick e) = true)
    (by decide +kernel)
  refine ⟨⟨2, 4⟩, es, s, rfl, hr, h1, ?_, h2, ?_, h4, ?_, ?_⟩
  · -- the clock is advanced once
    obtain ⟨h7, h8⟩ := h7
    simp only [List.all_eq_true, Bool.not_eq_true'] at h8
    have hz : ∀ l : List Ev, (∀ e, e ∈ l → isTick e = false) → clockAfter 0 l = 0 := by
      intro l
      induction l with
      | nil => intro _; rfl
      | cons x xs ih =>
          intro hl
          have := ih (fun e he => hl e (by simp [he]))
          cases x with
          | tick t => have := hl (.tick t) (by simp); cases this
          | _ => exact this
    intro a b hab
    have hfin : clockAfter 0 es = 10 := by rw [h7, clockAfter_append]; rfl
    rw [hfin]
    rcases List.eq_nil_or_concat b with rfl | ⟨b', x, rfl⟩
    · rw [List.append_nil] at hab; rw [← hab, hfin]; decide
    · have hp : a ++ b' = es.dropLast := by rw [hab]; simp [← List.append_assoc]
      have := hz a (fun e he => h8 e (by rw [← hp]; simp [he]))
      rw [this]; decide
  · obtain ⟨t, ht, h8⟩ := List.any_eq_true.mp h3
    exact ⟨t, ht, decide_eq_true_eq.mp h8⟩
  · intro w hw
    have : w = 0 ∨ w = 1 := by have : w < 2 := hw; omega
    rcases this with rfl | rfl
    · exact h5.1
    · exact h5.2
  · intro c
    by_cases hc : c ∈ [e0]
    · rw [List.mem_singleton.mp hc]; exact h6
    · exact hL c hc

/-- One worker executes a task A of a pool with one worker. -/
private def runA : List Move := addMoves e0 A 0 ++ [.notifyNone e0, .worker 0, .worker 0, .worker 0]

private def stateMoves (id : Nat) : List Move := [.handleState e0 id, .handleLock e0, .body e0, .handleCheck e0]

/-- **C58, violated.**  cancel() is called on a running task, which it does not cancel.  The task finishes, but
get_state() reports that it was canceled, is_complete() is false, and get_result() throws. -/
theorem c58_cancel_running_violated (last : Ev) (hlast : last ∈ [.answer (.ext 0) (.state 0) (.state .canceled),
      .complete (.ext 0) 0 false, .result (.ext 0) 0 none]) :
    ∃ cfg es s s', Run cfg es s ∧ Step cfg s last s' ∧ Small es ∧ Ev.canceled (.ext 0) 0 false ∈ es ∧
      fate es 0 = some (.finished (.value 7)) := by
  simp only [List.mem_cons, List.not_mem_nil, or_false] at hlast
  rcases hlast with rfl | rfl | rfl
  · obtain ⟨es, s, s', h1, h2, h3⟩ := play_last (cfg := ⟨1, 1⟩) (L := [e0])
      (runA ++ [.handleCancel e0 0, .handleLock e0, .body e0, .finish 0 (.value 7), .worker 0, .worker 0] ++ stateMoves 0)
      (.answer (.ext 0) (.state 0) (.state .canceled))
      (P := fun es => Small es ∧ Ev.canceled (.ext 0) 0 false ∈ es ∧ fate es 0 = some (.finished (.value 7))) (by decide +kernel)
    exact ⟨_, es, s, s', h1, h2, h3⟩
  · obtain ⟨es, s, s', h1, h2, h3⟩ := play_last (cfg := ⟨1, 1⟩) (L := [e0])
      (runA ++ [.handleCancel e0 0, .handleLock e0, .body e0, .finish 0 (.value 7), .worker 0, .handleComplete e0 0])
      (.complete (.ext 0) 0 false)
      (P := fun es => Small es ∧ Ev.canceled (.ext 0) 0 false ∈ es ∧ fate es 0 = some (.finished (.value 7))) (by decide +kernel)
    exact ⟨_, es, s, s', h1, h2, h3⟩
  · obtain ⟨es, s, s', h1, h2, h3⟩ := play_last (cfg := ⟨1, 1⟩) (L := [e0])
      (runA ++ [.handleCancel e0 0, .handleLock e0, .body e0, .finish 0 (.value 7), .worker 0, .handleResult e0 0])
      (.result (.ext 0) 0 none)
      (P := fun es => Small es ∧ Ev.canceled (.ext 0) 0 false ∈ es ∧ fate es 0 = some (.finished (.value 7))) (by decide +kernel)
    exact ⟨_, es, s, s', h1, h2, h3⟩

/-- **C58, violated.**  After the result has been fetched, get_state() reports a finished task as canceled, and
is_complete() is false. -/
theorem c58_after_result_violated (last : Ev) (hlast : last ∈ [.answer (.ext 0) (.state 0) (.state .canceled),
      .complete (.ext 0) 0 false]) :
    ∃ cfg es s s', Run cfg es s ∧ Step cfg s last s' ∧ Small es ∧
      Ev.result (.ext 0) 0 (some (.done (.value 7))) ∈ es ∧ fate es 0 = some (.finished (.value 7)) := by
  simp only [List.mem_cons, List.not_mem_nil, or_false] at hlast
  rcases hlast with rfl | rfl
  · obtain ⟨es, s, s', h1, h2, h3⟩ := play_last (cfg := ⟨1, 1⟩) (L := [e0])
      (runA ++ [.finish 0 (.value 7), .worker 0, .worker 0, .handleResult e0 0] ++ stateMoves 0)
      (.answer (.ext 0) (.state 0) (.state .canceled))
      (P := fun es => Small es ∧ Ev.result (.ext 0) 0 (some (.done (.value 7))) ∈ es ∧ fate es 0 = some (.finished (.value 7)))
      (by decide +kernel)
    exact ⟨_, es, s, s', h1, h2, h3⟩
  · obtain ⟨es, s, s', h1, h2, h3⟩ := play_last (cfg := ⟨1, 1⟩) (L := [e0])
      (runA ++ [.finish 0 (.value 7), .worker 0, .worker 0, .handleResult e0 0, .handleComplete e0 0])
      (.complete (.ext 0) 0 false)
      (P := fun es => Small es ∧ Ev.result (.ext 0) 0 (some (.done (.value 7))) ∈ es ∧ fate es 0 = some (.finished (.value 7)))
      (by decide +kernel)
    exact ⟨_, es, s, s', h1, h2, h3⟩

/-- **C58, violated.**  A task that cancel_pending_tasks() has removed from the queue never runs, but
get_state() reports it as complete, is_complete() is true, and get_result() throws broken_promise. -/
theorem c58_cancel_all_violated (last : Ev) (hlast : last ∈ [.answer (.ext 0) (.state 1) (.state .complete),
      .complete (.ext 0) 1 true, .result (.ext 0) 1 (some .broken)]) :
    ∃ cfg es s s', Run cfg es s ∧ Step cfg s last s' ∧ Small es ∧ Ev.cleared (.ext 0) 1 ∈ es ∧
      fate es 1 = some .canceled := by
  simp only [List.mem_cons, List.not_mem_nil, or_false] at hlast
  rcases hlast with rfl | rfl | rfl
  · obtain ⟨es, s, s', h1, h2, h3⟩ := play_last (cfg := ⟨1, 1⟩) (L := [e0])
      (runA ++ addMoves e0 B 0 ++ [.notifyNone e0, .begin e0 true .cancelAll, .body e0] ++ stateMoves 1)
      (.answer (.ext 0) (.state 1) (.state .complete))
      (P := fun es => Small es ∧ Ev.cleared (.ext 0) 1 ∈ es ∧ fate es 1 = some .canceled) (by decide +kernel)
    exact ⟨_, es, s, s', h1, h2, h3⟩
  · obtain ⟨es, s, s', h1, h2, h3⟩ := play_last (cfg := ⟨1, 1⟩) (L := [e0])
      (runA ++ addMoves e0 B 0 ++ [.notifyNone e0, .begin e0 true .cancelAll, .body e0, .handleComplete e0 1])
      (.complete (.ext 0) 1 true)
      (P := fun es => Small es ∧ Ev.cleared (.ext 0) 1 ∈ es ∧ fate es 1 = some .canceled) (by decide +kernel)
    exact ⟨_, es, s, s', h1, h2, h3⟩
  · obtain ⟨es, s, s', h1, h2, h3⟩ := play_last (cfg := ⟨1, 1⟩) (L := [e0])
      (runA ++ addMoves e0 B 0 ++ [.notifyNone e0, .begin e0 true .cancelAll, .body e0, .handleResult e0 1])
      (.result (.ext 0) 1 (some .broken))
      (P := fun es => Small es ∧ Ev.cleared (.ext 0) 1 ∈ es ∧ fate es 1 = some .canceled) (by decide +kernel)
    exact ⟨_, es, s, s', h1, h2, h3⟩

/-- **C49, violated.**  While the pool is being destroyed, a task that is still running adds a task: add_task
throws although the queue is not full. -/
theorem c49_destruction_violated : ∃ cfg es s s', Run cfg es s ∧ Step cfg s (.expired (.task 0)) s' ∧ Small es ∧
    Ev.begin (.task 0) (.add [66] 0) ∈ es ∧ (queue es).length < cfg.cap := by
  obtain ⟨es, s, s', h1, h2, h3⟩ := play_last (cfg := ⟨1, 1⟩) (L := [e0, .task 0])
    (runA ++ [.release e0] ++ addMoves (.task 0) B 0) (.expired (.task 0))
    (P := fun es => Small es ∧ Ev.begin (.task 0) (.add [66] 0) ∈ es ∧ (queue es).length < 1) (by decide +kernel)
  exact ⟨_, es, s, s', h1, h2, h3⟩

/-! ### Examples for the hypotheses of the theorems -/

example : ∃ es s, Run ⟨2, 2⟩ es s ∧ Small es ∧ (accepted es).map Task.id = [0, 1, 2] ∧ Ev.full (.ext 0) ∈ es := by
  obtain ⟨es, s, h1, _, h2⟩ := play_exists (cfg := ⟨2, 2⟩) (L := [e0, .ext 1, .task 1])
    (rest2 ++ addMoves e0 [65] 0 ++ [.notifyOne e0 1] ++ addMoves (.ext 1) [66] 5 ++
      addMoves e0 [67] 0 ++ [.worker 1, .worker 1, .worker 1] ++ addMoves (.task 1) [67] 0)
    (P := fun es _ => Small es ∧ (accepted es).map Task.id = [0, 1, 2] ∧ Ev.full (.ext 0) ∈ es) (by decide +kernel)
  exact ⟨es, s, h1, h2⟩

/-- A is executed and its result fetched, B is canceled, C throws, and the pool is destroyed. -/
example : ∃ es s s', Run ⟨2, 2⟩ es s ∧ Step ⟨2, 2⟩ s (.destroyed (.ext 0)) s' ∧ Small es ∧
    fate es 0 = some (.finished (.value 3)) ∧ fate es 1 = some .canceled ∧ fate es 2 = some (.finished (.exception 4)) ∧
    startedIds es = [0, 2] ∧ delivered 0 es = [.done (.value 3)] ∧
    Ev.answer (.ext 0) .runningNames (.names [[65], [67]]) ∈ es := by
  exact play_last (cfg := ⟨2, 2⟩) (L := [e0, .ext 1, .task 1])
    (rest2 ++ addMoves e0 [65] 0 ++ [.notifyOne e0 1] ++ addMoves (.ext 1) [66] 5 ++ [.worker 1, .worker 1, .worker 1] ++
      [.notifyOne (.ext 1) 0, .worker 0, .worker 0, .worker 0] ++
      addMoves (.task 1) [67] 0 ++ [.notifyOne (.task 1) 0, .worker 0, .worker 0, .worker 0] ++
      [.handleCancel (.ext 1) 1, .handleLock (.ext 1), .body (.ext 1), .finish 1 (.value 3), .finish 0 (.exception 4)] ++
      [.begin e0 true .runningNames, .body e0, .handleResult e0 0, .release e0, .dtor e0, .dtor e0] ++
      [.worker 1, .worker 1, .worker 0, .worker 0, .dtor e0])
    (.destroyed (.ext 0))
    (P := fun es => Small es ∧
      fate es 0 = some (.finished (.value 3)) ∧ fate es 1 = some .canceled ∧ fate es 2 = some (.finished (.exception 4)) ∧
      startedIds es = [0, 2] ∧ delivered 0 es = [.done (.value 3)] ∧
      Ev.answer (.ext 0) .runningNames (.names [[65], [67]]) ∈ es) (by decide +kernel)

/-- A task that releases the last shared pointer: std::terminate. -/
example : ∃ es s s', Run ⟨1, 2⟩ es s ∧ Step ⟨1, 2⟩ s (.terminate (.task 0)) s' ∧ Ev.release (.task 0) ∈ es := by
  exact play_last (cfg := ⟨1, 2⟩) (L := [e0, .task 0])
    (runA ++ [.release (.task 0), .dtor (.task 0), .dtor (.task 0), .dtor (.task 0)])
    (.terminate (.task 0)) (P := fun es => Ev.release (.task 0) ∈ es) (by decide +kernel)

/-- A worker sleeps until the start time of a delayed task. -/
example : ∃ es s, Run ⟨1, 2⟩ es s ∧ s.wpc 0 = .sleep (some 10) ∧ (queue es).map Task.start = [20, 10] ∧ shut es = false := by
  obtain ⟨es, s, h1, _, h2⟩ := play_exists (cfg := ⟨1, 2⟩) (L := [e0])
    (addMoves e0 [65] 20 ++ [.notifyNone e0] ++ addMoves e0 [65] 10 ++ [.notifyNone e0, .worker 0, .worker 0, .worker 0])
    (P := fun es s => s.wpc 0 = .sleep (some 10) ∧ (queue es).map Task.start = [20, 10] ∧ shut es = false) (by decide +kernel)
  exact ⟨es, s, h1, h2⟩

end Gul14.Pool
