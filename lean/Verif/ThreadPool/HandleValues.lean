import Verif.Basic

/-!
# C138: task handles as objects, ThreadPool.h:132-242

Handles live in numbered variables.  They are made without a task, returned by add_task, moved between variables and destroyed; in
between, everything else (threads, queues, destruction of pools, other users) may change the pools at will.  Copying does not
compile, because std::future cannot be copied.  A task is known by the number of its std::future's shared state.
-/
namespace Gul14.ThreadPool.HandleValues

/-- What a task function ends with: a value, an exception, or a broken promise. -/
inductive Out where
  | value (v : Int)
  | error (e : Nat)
  | broken
  deriving DecidableEq

/-- TaskState, ThreadPool.h:64-70. -/
inductive Report where
  | pending | running | complete | canceled
  deriving DecidableEq

/-- InternalTaskState, ThreadPool.h:454-462. -/
inductive Internal where
  | pending | running | unknown
  deriving DecidableEq

/-- The pools and the shared states.  `poolOf` and `idOf` say where add_task put a task; they are not used by handles. -/
structure World where
  alive : Nat → Bool
  pending : Nat → List Nat
  running : Nat → List Nat
  out : Nat → Option Out
  next : Nat
  poolOf : Nat → Nat
  idOf : Nat → Nat

/-- Members of TaskHandle, ThreadPool.h:239-241: future_, id_ and the weak pointer pool_. -/
structure Handle where
  fut : Option Nat
  id : Nat
  pool : Option Nat
  deriving DecidableEq

/-- TaskHandle(), ThreadPool.h:141-142, 240. -/
def Handle.empty : Handle := ⟨none, 0, none⟩

/-- TaskHandle(id, future, pool), ThreadPool.h:156-160. -/
def Handle.make (id fut pool : Nat) : Handle := ⟨some fut, id, some pool⟩

/-- The implicit move constructor and move assignment, ThreadPool.h:132-242: what arrives, and what is left behind.  The number is copied. -/
def Handle.moved (h : Handle) : Handle × Handle := (h, { h with fut := none, pool := none })

/-- lock_pool_or_throw, ThreadPool.cc:35-42; `none`: std::logic_error. -/
def lockPool (w : World) : Option Nat → Option Nat
  | some p => if w.alive p then some p else none
  | none => none

/-- ThreadPool::cancel_pending_task, ThreadPool.cc:82-95: the first task with this number is removed. -/
def cancelPending (w : World) (p id : Nat) : Bool × World :=
  if id ∈ w.pending p then (true, { w with pending := fun q => if q = p then (w.pending p).erase id else w.pending q })
  else (false, w)

/-- TaskHandle::cancel, ThreadPool.h:173-177; `none`: std::logic_error. -/
def Handle.cancel (w : World) (h : Handle) : Option Bool × Handle × World :=
  let h := { h with fut := none }
  match lockPool w h.pool with
  | none => (none, h, w)
  | some p => (some (cancelPending w p h.id).1, h, (cancelPending w p h.id).2)

/-- TaskHandle::get_result, ThreadPool.h:185-190: what is delivered (`none`: std::logic_error) and the handle after it.  `none` as a whole: it
has to wait. -/
def Handle.getResult (w : World) (h : Handle) : Option (Option Out × Handle) :=
  match h.fut with
  | none => some (none, h)
  | some t => match w.out t with
    | none => none
    | some o => some (some o, { h with fut := none })

/-- TaskHandle::is_complete, ThreadPool.h:204-210. -/
def Handle.isComplete (w : World) (h : Handle) : Bool :=
  match h.fut with
  | none => false
  | some t => (w.out t).isSome

/-- ThreadPool::get_task_state, ThreadPool.cc:154-170. -/
def taskState (w : World) (p id : Nat) : Internal :=
  if id ∈ w.running p then .running else if id ∈ w.pending p then .pending else .unknown

/-- TaskHandle::get_state, ThreadPool.h:224-236; `none`: std::logic_error. -/
def Handle.getState (w : World) (h : Handle) : Option Report :=
  match lockPool w h.pool with
  | none => none
  | some p => match taskState w p h.id with
    | .unknown => if h.isComplete w then some .complete else some .canceled
    | .pending => some .pending
    | .running => some .running

structure State where
  slots : Nat → Option Handle
  w : World

def State.set (s : State) (i : Nat) (h : Option Handle) : State := { s with slots := fun k => if k = i then h else s.slots k }

/-- What happens, with the answers that the user sees. -/
inductive Ev where
  | made (i : Nat)
  | added (i t : Nat)
  | moved (to from_ : Nat)
  | gone (i : Nat)
  | canceled (i : Nat) (r : Option Bool)
  | got (i : Nat) (r : Option Out)
  | completed (i : Nat) (b : Bool)
  | state (i : Nat) (r : Option Report)
  | world

/-- Everything else may change the pools and end the tasks; a task stays where it was put. -/
def Other (w w' : World) : Prop := w.next = w'.next ∧ ∀ t < w.next, w'.poolOf t = w.poolOf t ∧ w'.idOf t = w.idOf t

/-- One operation on the handles.  add_task (ThreadPool.h:330-352, 610-632) puts the task `w.next` into the pool `p` under the number `id` and
returns its handle. -/
inductive Step : State → Ev → State → Prop
  | made (s i) : s.slots i = none → Step s (.made i) (s.set i (some Handle.empty))
  | added (s i p id) : s.slots i = none → Step s (.added i s.w.next)
      { s.set i (some (Handle.make id s.w.next p)) with w := { s.w with
          next := s.w.next + 1
          poolOf := fun t => if t = s.w.next then p else s.w.poolOf t
          idOf := fun t => if t = s.w.next then id else s.w.idOf t } }
  | moved (s i j h) : i ≠ j → s.slots j = some h → Step s (.moved i j) ((s.set j (some h.moved.2)).set i (some h.moved.1))
  | gone (s i) : Step s (.gone i) (s.set i none)
  | canceled (s i h) : s.slots i = some h →
      Step s (.canceled i (h.cancel s.w).1) { s.set i (some (h.cancel s.w).2.1) with w := (h.cancel s.w).2.2 }
  | got (s i h r) : s.slots i = some h → h.getResult s.w = some r → Step s (.got i r.1) (s.set i (some r.2))
  | completed (s i h) : s.slots i = some h → Step s (.completed i (h.isComplete s.w)) s
  | state (s i h) : s.slots i = some h → Step s (.state i (h.getState s.w)) s
  | world (s w') : Other s.w w' → Step s .world { s with w := w' }

/-- Histories, the last event first. -/
inductive Run : List Ev → State → Prop
  | nil (w) : Run [] ⟨fun _ => none, w⟩
  | cons {es s e s'} : Run es s → Step s e s' → Run (e :: es) s'

/-! ## Specification -/

/-- The task that the handle in variable `i` stands for: the one it was returned for, or that of the handle moved into it. -/
def standsFor : List Ev → Nat → Option Nat
  | [], _ => none
  | .made j :: es, i => if i = j then none else standsFor es i
  | .added j t :: es, i => if i = j then some t else standsFor es i
  | .moved a b :: es, i => if i = a then standsFor es b else if i = b then none else standsFor es i
  | .gone j :: es, i => if i = j then none else standsFor es i
  | _ :: es, i => standsFor es i

/-- cancel() has been called for task `t`, or get_result() has returned. -/
def spent : List Ev → Nat → Bool
  | [], _ => false
  | .canceled i _ :: es, t => decide (standsFor es i = some t) || spent es t
  | .got i _ :: es, t => decide (standsFor es i = some t) || spent es t
  | _ :: es, t => spent es t

/-! ## Proofs -/

/-- A handle represents what its variable stands for. -/
def Good (es : List Ev) (w : World) (h : Handle) : Option Nat → Prop
  | none => h.fut = none ∧ h.pool = none
  | some t => h.pool = some (w.poolOf t) ∧ h.id = w.idOf t ∧ h.fut = if spent es t then none else some t

structure Inv (es : List Ev) (s : State) : Prop where
  good : ∀ i h, s.slots i = some h → Good es s.w h (standsFor es i)
  none : ∀ i, s.slots i = none → standsFor es i = none
  old : ∀ i t, standsFor es i = some t → t < s.w.next
  spentOld : ∀ t, spent es t = true → t < s.w.next
  one : ∀ i j t, standsFor es i = some t → standsFor es j = some t → i = j

theorem good_congr {es es' : List Ev} {w w' : World} {h : Handle} {o : Option Nat} (hg : Good es w h o)
    (he : ∀ t, o = some t → spent es' t = spent es t ∧ w'.poolOf t = w.poolOf t ∧ w'.idOf t = w.idOf t) : Good es' w' h o := by
  cases o with
  | none => exact hg
  | some t =>
    obtain ⟨h1, h2, h3⟩ := he t rfl
    exact ⟨by rw [h2]; exact hg.1, by rw [h3]; exact hg.2.1, by rw [h1]; exact hg.2.2⟩

theorem cancel_world (w : World) (h : Handle) : (h.cancel w).2.2.next = w.next ∧ (h.cancel w).2.2.poolOf = w.poolOf ∧
    (h.cancel w).2.2.idOf = w.idOf ∧ (h.cancel w).2.1 = { h with fut := none } := by
  have hp : ∀ p id, (cancelPending w p id).2.next = w.next ∧ (cancelPending w p id).2.poolOf = w.poolOf ∧
      (cancelPending w p id).2.idOf = w.idOf := by
    intro p id
    unfold cancelPending
    split <;> exact ⟨rfl, rfl, rfl⟩
  simp only [Handle.cancel]
  cases lockPool w h.pool with
  | none => exact ⟨rfl, rfl, rfl, rfl⟩
  | some p => exact ⟨(hp p h.id).1, (hp p h.id).2.1, (hp p h.id).2.2, rfl⟩

theorem inv_step {es : List Ev} {s s' : State} {e : Ev} (hi : Inv es s) (hs : Step s e s') : Inv (e :: es) s' := by
  obtain ⟨good, nn, old, so, one⟩ := hi
  cases hs with
  | made i hn =>
    constructor
    · intro k h hk
      simp only [State.set] at hk
      by_cases e : k = i
      · subst e
        simp only [if_true, Option.some.injEq] at hk
        subst hk
        simp only [standsFor, if_true]
        exact ⟨rfl, rfl⟩
      · rw [if_neg e] at hk
        simp only [standsFor, if_neg e]
        exact good_congr (good k h hk) fun _ _ => ⟨rfl, rfl, rfl⟩
    · intro k hk
      simp only [State.set] at hk
      by_cases e : k = i
      · simp [e] at hk
      · rw [if_neg e] at hk
        simp only [standsFor, if_neg e]; exact nn k hk
    · intro k t hk
      simp only [standsFor] at hk
      split at hk
      · cases hk
      · exact old k t hk
    · exact so
    · intro k l t hk hl
      simp only [standsFor] at hk hl
      split at hk
      · cases hk
      · split at hl
        · cases hl
        · exact one k l t hk hl
  | added i p id hn =>
    have hsp : spent es s.w.next = false := by
      cases hc : spent es s.w.next with
      | false => rfl
      | true => have := so s.w.next hc; omega
    constructor
    · intro k h hk
      simp only [State.set] at hk
      by_cases e : k = i
      · subst e
        simp only [if_true, Option.some.injEq] at hk
        subst hk
        simp only [standsFor, if_true]
        refine ⟨?_, ?_, ?_⟩
        · simp [Handle.make]
        · simp [Handle.make]
        · have : spent (.added k s.w.next :: es) s.w.next = false := hsp
          rw [this]; rfl
      · rw [if_neg e] at hk
        simp only [standsFor, if_neg e]
        refine good_congr (good k h hk) fun t ht => ?_
        have := old k t ht
        have hne : t ≠ s.w.next := by omega
        exact ⟨rfl, by simp [hne], by simp [hne]⟩
    · intro k hk
      simp only [State.set] at hk
      by_cases e : k = i
      · simp [e] at hk
      · rw [if_neg e] at hk
        simp only [standsFor, if_neg e]; exact nn k hk
    · intro k t hk
      simp only [standsFor] at hk
      show t < s.w.next + 1
      split at hk
      · simp only [Option.some.injEq] at hk; omega
      · have := old k t hk; omega
    · intro t ht
      have := so t ht
      show t < s.w.next + 1
      omega
    · intro k l t hk hl
      simp only [standsFor] at hk hl
      split at hk
      · rename_i hki
        split at hl
        · rename_i hli; rw [hki, hli]
        · simp only [Option.some.injEq] at hk
          have := old l t hl; omega
      · split at hl
        · simp only [Option.some.injEq] at hl
          have := old k t hk; omega
        · exact one k l t hk hl
  | moved i j h hij hj =>
    constructor
    · intro k h' hk
      simp only [State.set] at hk
      by_cases e : k = i
      · subst e
        simp only [if_true, Option.some.injEq] at hk
        subst hk
        simp only [standsFor, if_true]
        exact good_congr (good j h hj) fun _ _ => ⟨rfl, rfl, rfl⟩
      · rw [if_neg e] at hk
        by_cases e2 : k = j
        · subst e2
          simp only [if_true, Option.some.injEq] at hk
          subst hk
          simp only [standsFor, if_neg e, if_true]
          exact ⟨rfl, rfl⟩
        · rw [if_neg e2] at hk
          simp only [standsFor, if_neg e, if_neg e2]
          exact good_congr (good k h' hk) fun _ _ => ⟨rfl, rfl, rfl⟩
    · intro k hk
      simp only [State.set] at hk
      by_cases e : k = i
      · simp [e] at hk
      · rw [if_neg e] at hk
        by_cases e2 : k = j
        · simp [e2] at hk
        · rw [if_neg e2] at hk
          simp only [standsFor, if_neg e, if_neg e2]; exact nn k hk
    · intro k t hk
      simp only [standsFor] at hk
      split at hk
      · exact old j t hk
      · split at hk
        · cases hk
        · exact old k t hk
    · exact so
    · intro k l t hk hl
      simp only [standsFor] at hk hl
      by_cases a1 : k = i <;> by_cases a2 : l = i
      · rw [a1, a2]
      · rw [if_pos a1] at hk
        rw [if_neg a2] at hl
        split at hl
        · cases hl
        · rename_i hlj
          exact (hlj (one l j t hl hk)).elim
      · rw [if_neg a1] at hk
        rw [if_pos a2] at hl
        split at hk
        · cases hk
        · rename_i hkj
          exact (hkj (one k j t hk hl)).elim
      · rw [if_neg a1] at hk
        rw [if_neg a2] at hl
        split at hk
        · cases hk
        · split at hl
          · cases hl
          · exact one k l t hk hl
  | gone i =>
    constructor
    · intro k h hk
      simp only [State.set] at hk
      by_cases e : k = i
      · simp [e] at hk
      · rw [if_neg e] at hk
        simp only [standsFor, if_neg e]
        exact good_congr (good k h hk) fun _ _ => ⟨rfl, rfl, rfl⟩
    · intro k hk
      simp only [State.set] at hk
      by_cases e : k = i
      · simp [standsFor, e]
      · rw [if_neg e] at hk
        simp only [standsFor, if_neg e]; exact nn k hk
    · intro k t hk
      simp only [standsFor] at hk
      split at hk
      · cases hk
      · exact old k t hk
    · exact so
    · intro k l t hk hl
      simp only [standsFor] at hk hl
      split at hk
      · cases hk
      · split at hl
        · cases hl
        · exact one k l t hk hl
  | canceled i h hi =>
    obtain ⟨c1, c2, c3, c4⟩ := cancel_world s.w h
    constructor
    · intro k h' hk
      simp only [State.set] at hk
      simp only [standsFor]
      by_cases e : k = i
      · subst e
        simp only [if_true, Option.some.injEq] at hk
        subst hk
        have hg := good k h hi
        rw [c4]
        cases hst : standsFor es k with
        | none => rw [hst] at hg; exact ⟨rfl, hg.2⟩
        | some t =>
          rw [hst] at hg
          refine ⟨by rw [c2]; exact hg.1, by rw [c3]; exact hg.2.1, ?_⟩
          simp [spent, hst]
      · rw [if_neg e] at hk
        refine good_congr (good k h' hk) fun t ht => ⟨?_, by rw [c2], by rw [c3]⟩
        have : standsFor es i ≠ some t := fun hc => e (one k i t ht hc)
        simp [spent, this]
    · intro k hk
      simp only [State.set] at hk
      by_cases e : k = i
      · simp [e] at hk
      · rw [if_neg e] at hk
        exact nn k hk
    · intro k t hk
      show t < (h.cancel s.w).2.2.next
      rw [c1]; exact old k t hk
    · intro t ht
      show t < (h.cancel s.w).2.2.next
      rw [c1]
      simp only [spent, Bool.or_eq_true, decide_eq_true_eq] at ht
      rcases ht with ht | ht
      · exact old i t ht
      · exact so t ht
    · exact one
  | got i h r hi hr =>
    have hf : r.2 = { h with fut := none } := by
      unfold Handle.getResult at hr
      split at hr
      · rename_i hfut
        cases hr
        cases h; simp_all
      · split at hr
        · cases hr
        · cases hr; rfl
    constructor
    · intro k h' hk
      simp only [State.set] at hk
      simp only [standsFor]
      by_cases e : k = i
      · subst e
        simp only [if_true, Option.some.injEq] at hk
        subst hk
        have hg := good k h hi
        rw [hf]
        cases hst : standsFor es k with
        | none => rw [hst] at hg; exact ⟨rfl, hg.2⟩
        | some t =>
          rw [hst] at hg
          refine ⟨hg.1, hg.2.1, ?_⟩
          simp [spent, hst]
      · rw [if_neg e] at hk
        refine good_congr (good k h' hk) fun t ht => ⟨?_, rfl, rfl⟩
        have : standsFor es i ≠ some t := fun hc => e (one k i t ht hc)
        simp [spent, this]
    · intro k hk
      simp only [State.set] at hk
      by_cases e : k = i
      · simp [e] at hk
      · rw [if_neg e] at hk
        exact nn k hk
    · exact old
    · intro t ht
      simp only [spent, Bool.or_eq_true, decide_eq_true_eq] at ht
      rcases ht with ht | ht
      · exact old i t ht
      · exact so t ht
    · exact one
  | completed i h hi =>
    exact ⟨fun k h' hk => good_congr (good k h' hk) fun _ _ => ⟨rfl, rfl, rfl⟩, nn, old, so, one⟩
  | state i h hi =>
    exact ⟨fun k h' hk => good_congr (good k h' hk) fun _ _ => ⟨rfl, rfl, rfl⟩, nn, old, so, one⟩
  | world w' hw =>
    refine ⟨fun k h' hk => good_congr (good k h' hk) fun t ht => ⟨rfl, ?_, ?_⟩, nn, fun k t hk => ?_, fun t ht => ?_, one⟩
    · exact (hw.2 t (old k t ht)).1
    · exact (hw.2 t (old k t ht)).2
    · show t < w'.next
      rw [← hw.1]; exact old k t hk
    · show t < w'.next
      rw [← hw.1]; exact so t ht

theorem inv {es : List Ev} {s : State} (h : Run es s) : Inv es s := by
  induction h with
  | nil w => exact ⟨fun i h hi => (by cases hi), fun _ _ => rfl, fun i t h => (by cases h), fun t h => (by cases h), fun i j t h => (by cases h)⟩
  | cons _ hs ih => exact inv_step ih hs

/-- C138: no two handles stand for the same task. -/
theorem c138_unique {es : List Ev} {s : State} (hr : Run es s) (i j t : Nat) (hi : standsFor es i = some t)
    (hj : standsFor es j = some t) : i = j := (inv hr).one i j t hi hj

/-- A handle that was made without a task, or has been moved from: is_complete() is false, everything else throws std::logic_error. -/
theorem c138_empty {es : List Ev} {s s' : State} (hr : Run es s) (i : Nat) (hi : standsFor es i = none) :
    (∀ b, Step s (.completed i b) s' → b = false) ∧ (∀ r, Step s (.got i r) s' → r = none) ∧
    (∀ r, Step s (.canceled i r) s' → r = none) ∧ (∀ r, Step s (.state i r) s' → r = none) := by
  have key : ∀ h, s.slots i = some h → h.fut = none ∧ h.pool = none := by
    intro h hs
    have := (inv hr).good i h hs
    rwa [hi] at this
  refine ⟨fun b hb => ?_, fun r hb => ?_, fun r hb => ?_, fun r hb => ?_⟩
  · cases hb with
    | completed _ h hs => simp [Handle.isComplete, (key h hs).1]
  · cases hb with
    | got _ h r hs hg =>
      simp only [Handle.getResult, (key h hs).1, Option.some.injEq] at hg
      rw [← hg]
  · cases hb with
    | canceled _ h hs => simp [Handle.cancel, lockPool, (key h hs).2]
  · cases hb with
    | state _ h hs => simp [Handle.getState, lockPool, (key h hs).2]

/-- get_result() returns the result of the task that the handle stands for; it throws std::logic_error exactly if there is none or cancel()
or get_result() has been called for it. -/
theorem c138_result {es : List Ev} {s s' : State} (hr : Run es s) (i : Nat) (r : Option Out) (hs : Step s (.got i r) s') :
    (r = none ↔ ∀ t, standsFor es i = some t → spent es t = true) ∧
    ∀ o, r = some o → ∃ t, standsFor es i = some t ∧ s.w.out t = some o := by
  cases hs with
  | got _ h r hi hg =>
    have hgood := (inv hr).good i h hi
    cases hst : standsFor es i with
    | none =>
      rw [hst] at hgood
      simp only [Handle.getResult, hgood.1, Option.some.injEq] at hg
      rw [← hg]
      simp
    | some t =>
      rw [hst] at hgood
      have hf := hgood.2.2
      by_cases hsp : spent es t = true
      · rw [if_pos hsp] at hf
        simp only [Handle.getResult, hf, Option.some.injEq] at hg
        rw [← hg]
        simp [hsp]
      · rw [if_neg hsp] at hf
        simp only [Handle.getResult, hf] at hg
        cases ho : s.w.out t with
        | none => rw [ho] at hg; cases hg
        | some o =>
          rw [ho] at hg
          simp only [Option.some.injEq] at hg
          rw [← hg]
          refine ⟨by simp [hsp], fun o' h' => ⟨t, rfl, ?_⟩⟩
          simp only [Option.some.injEq] at h'
          rw [ho, h']

theorem spent_append (es : List Ev) (t : Nat) : ∀ es2, spent es t = true → spent (es2 ++ es) t = true := by
  intro es2 h
  induction es2 with
  | nil => exact h
  | cons e es2 ih =>
    cases e <;> simp only [List.cons_append, spent, Bool.or_eq_true] <;> first | exact ih | exact .inr ih

/-- The result of a task is returned at most once, whatever handles it was moved through. -/
theorem c138_once {es1 es2 : List Ev} {s : State} {i j t : Nat} {o o' : Out}
    (hr : Run (.got i (some o) :: (es2 ++ .got j (some o') :: es1)) s)
    (hi : standsFor (es2 ++ .got j (some o') :: es1) i = some t) : standsFor es1 j ≠ some t := by
  intro hj
  cases hr with
  | cons hr hs =>
    have h1 := (c138_result hr i (some o) hs).1
    have hsp : spent (es2 ++ .got j (some o') :: es1) t = true := by
      apply spent_append
      simp [spent, hj]
    have : (some o : Option Out) = none := h1.2 (fun t' ht => by rw [hi] at ht; cases ht; exact hsp)
    cases this

/-- is_complete() is true exactly if the task has ended and its result has not been given away. -/
theorem c138_is_complete {es : List Ev} {s s' : State} (hr : Run es s) (i t : Nat) (hi : standsFor es i = some t) (b : Bool)
    (hs : Step s (.completed i b) s') : b = true ↔ spent es t = false ∧ ∃ o, s.w.out t = some o := by
  cases hs with
  | completed _ h hsl =>
    have hg := (inv hr).good i h hsl
    rw [hi] at hg
    have hf := hg.2.2
    by_cases hsp : spent es t = true
    · rw [if_pos hsp] at hf
      simp [Handle.isComplete, hf, hsp]
    · rw [if_neg hsp] at hf
      simp only [Handle.isComplete, hf]
      simp only [Bool.not_eq_true] at hsp
      rw [Option.isSome_iff_exists]
      simp [hsp]

/-- get_state() asks the pool that the task was added to for this very task, and throws std::logic_error if that pool is gone. -/
theorem c138_state {es : List Ev} {s s' : State} (hr : Run es s) (i t : Nat) (hi : standsFor es i = some t) (r : Option Report)
    (hs : Step s (.state i r) s') : r = if s.w.alive (s.w.poolOf t) = false then none else
      if s.w.idOf t ∈ s.w.running (s.w.poolOf t) then some .running
      else if s.w.idOf t ∈ s.w.pending (s.w.poolOf t) then some .pending
      else if spent es t = false ∧ s.w.out t ≠ none then some .complete else some .canceled := by
  cases hs with
  | state _ h hsl =>
    have hg := (inv hr).good i h hsl
    rw [hi] at hg
    obtain ⟨h1, h2, hf⟩ := hg
    have hc : h.isComplete s.w = true ↔ (spent es t = false ∧ s.w.out t ≠ none) := by
      have := c138_is_complete hr i t hi _ (Step.completed s i h hsl)
      rw [this, Option.ne_none_iff_exists']
    unfold Handle.getState
    rw [h1, h2]
    cases ha : s.w.alive (s.w.poolOf t) with
    | false => simp [lockPool, ha]
    | true =>
      simp only [lockPool, ha, if_true]
      by_cases a1 : s.w.idOf t ∈ s.w.running (s.w.poolOf t)
      · simp [taskState, a1]
      · by_cases a2 : s.w.idOf t ∈ s.w.pending (s.w.poolOf t)
        · simp [taskState, a1, a2]
        · simp only [taskState, a1, a2, if_false, Bool.true_eq_false, hc]

/-- cancel() removes this very task from the queue of its pool and nothing else, if it waits there, and says whether it did; it throws
std::logic_error if the pool is gone. -/
theorem c138_cancel {es : List Ev} {s s' : State} (hr : Run es s) (i t : Nat) (hi : standsFor es i = some t) (r : Option Bool)
    (hs : Step s (.canceled i r) s') :
    r = (if s.w.alive (s.w.poolOf t) = false then none else some (decide (s.w.idOf t ∈ s.w.pending (s.w.poolOf t)))) ∧
    (∀ p, s'.w.pending p = if r = some true ∧ p = s.w.poolOf t then (s.w.pending p).erase (s.w.idOf t) else s.w.pending p) ∧
    s'.w.running = s.w.running ∧ s'.w.out = s.w.out := by
  cases hs with
  | canceled _ h hsl =>
    have hg := (inv hr).good i h hsl
    rw [hi] at hg
    obtain ⟨h1, h2, -⟩ := hg
    simp only [Handle.cancel, h1, h2]
    cases ha : s.w.alive (s.w.poolOf t) with
    | false => simp [lockPool, ha]
    | true =>
      simp only [lockPool, ha, if_true]
      by_cases a : s.w.idOf t ∈ s.w.pending (s.w.poolOf t)
      · simp only [cancelPending, a, if_true]
        refine ⟨by simp, fun p => ?_, by simp⟩
        by_cases hp : p = s.w.poolOf t
        · subst hp; simp
        · simp [hp]
      · simp [cancelPending, a]

/-- A call of cancel() that throws, or that cancels nothing, is not without effect: whatever the pool, the task and the answer are, the result
cannot be fetched any more. -/
theorem c138_cancel_violated {es : List Ev} {s s1 s2 : State} (hr : Run es s) (i t : Nat) (_hi : standsFor es i = some t)
    (r : Option Bool) (h1 : Step s (.canceled i r) s1) (r' : Option Out) (h2 : Step s1 (.got i r') s2) : r' = none := by
  refine (c138_result (.cons hr h1) i r' h2).1.2 fun t' ht => ?_
  have : standsFor es i = some t' := ht
  simp [spent, this]

/-! ## Examples -/

def w0 : World := ⟨fun _ => true, fun _ => [], fun _ => [], fun _ => none, 0, fun _ => 0, fun _ => 0⟩
/-- Task 5 of pool 2, whose handle is moved from variable 0 to variable 1, has ended with 7 and its pool is destroyed. -/
def w1 : World := ⟨fun p => p != 2, fun _ => [], fun _ => [], fun t => if t = 0 then some (.value 7) else none, 1, fun _ => 2, fun _ => 5⟩

theorem example_run : ∃ s, Run [.world, .moved 1 0, .added 0 0] s ∧ s.slots 1 = some ⟨some 0, 5, some 2⟩ ∧
    s.slots 0 = some ⟨none, 5, none⟩ ∧ s.w = w1 := by
  refine ⟨_, .cons (.cons (.cons (.nil w0) (.added _ 0 2 5 rfl)) (.moved _ 1 0 _ (by decide) rfl)) (.world _ w1 ?_), ?_, ?_, rfl⟩
  · refine ⟨rfl, fun t ht => ?_⟩
    have : t = 0 := by simp [State.set, w0] at ht; exact ht
    subst this
    exact ⟨rfl, rfl⟩
  · rfl
  · rfl
example : standsFor [.world, .moved 1 0, .added 0 0] 1 = some 0 ∧ standsFor [.world, .moved 1 0, .added 0 0] 0 = none := by decide
-- the result can be fetched, but not after a call of cancel(), which throws
example : (Handle.mk (some 0) 5 (some 2)).getResult w1 = some (some (.value 7), ⟨none, 5, some 2⟩) := by decide
example : ((Handle.mk (some 0) 5 (some 2)).cancel w1).1 = none := by decide
example : ((Handle.mk (some 0) 5 (some 2)).cancel w1).2.1.getResult w1 = some (none, ⟨none, 5, some 2⟩) := by decide

end Gul14.ThreadPool.HandleValues
