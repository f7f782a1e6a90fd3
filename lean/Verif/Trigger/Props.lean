import Verif.Trigger.Model

/-! # C59 to C62: Trigger and interruptible sleep -/
namespace Gul14.Spec.Trig
open Trigger

/-- The level after some events: the last one set. -/
def levelAfter (b : Bool) : List Ev → Bool
  | [] => b
  | .level _ c :: es => levelAfter c es
  | _ :: es => levelAfter b es

theorem levelAfter_append (b : Bool) (es : List Ev) (e : Ev) :
    levelAfter b (es ++ [e]) = match e with
      | .level _ c => c
      | _ => levelAfter b es := by
  induction es generalizing b with
  | nil => cases e <;> rfl
  | cons x xs ih =>
      cases x <;> simp only [List.cons_append, levelAfter] <;> exact ih _

/-- The wait-like calls. -/
def IsWait : Call → Prop
  | .wait | .waitFor _ | .waitUntil _ | .sleep _ => True
  | _ => False

/-- What a call may report if the level is `l`: wait() returns only if the trigger is high, wait_for,
wait_until and operator bool return the level, sleep its negation.  No other call has a result. -/
def MayReport (l : Bool) : Call → Option Bool → Prop
  | .wait, r => l = true ∧ r = none
  | .waitFor _, r => r = some l
  | .waitUntil _, r => r = some l
  | .read, r => r = some l
  | .sleep _, r => r = some (!l)
  | _, _ => False

end Gul14.Spec.Trig

namespace Gul14.Trigger
open Spec.Trig

/-- The thread owns the mutex. -/
def holds : Pc → Bool
  | .setHigh _ | .setLow | .reading | .test _ | .last _ => true
  | _ => false

theorem goto_same (s : St) (i : Nat) (p : Pc) : (s.goto i p).pc i = p := by simp [St.goto]
theorem goto_other {s : St} {i k : Nat} {p : Pc} (h : k ≠ i) : (s.goto i p).pc k = s.pc k := by
  simp [St.goto, h]

theorem wake_holds (p : Pc) : holds (wake p) = holds p := by cases p <;> rfl
theorem wake_not_blocked (p : Pc) : isBlocked (wake p) = false := by cases p <;> rfl

/-- Waits in progress. -/
def waitOf : Pc → Option Wait
  | .test w | .blocked w | .woken w | .last w => some w
  | _ => none
theorem wake_waitOf (p : Pc) : waitOf (wake p) = waitOf p := by cases p <;> rfl

/-- A wait in progress is one of the waiting calls; the deadline of wait_for and sleep is at least the
duration after the beginning. -/
def GoodWait (w : Wait) : Prop := IsWait w.call ∧
  (∀ d, w.call = .waitFor d ∨ w.call = .sleep d → ∃ t, w.limit = some (.steady t) ∧ w.began + d ≤ t) ∧
  (∀ t, w.call = .waitUntil t → w.limit = some (.other t)) ∧ (w.call = .wait → w.limit = none)

/-- At some moment of the execution thread `i` was in the wait `w` and the clock of wait_until showed at
least `t`. -/
def Seen (b : Bool) (es : List Ev) (i : Nat) (w : Wait) (t : Nat) : Prop :=
  ∃ es1 es2 s1, es = es1 ++ es2 ∧ Run b es1 s1 ∧ s1.pc i = .woken w ∧ t ≤ s1.other

theorem Seen.mono {b : Bool} {es : List Ev} {i : Nat} {w : Wait} {t : Nat} (h : Seen b es i w t) (e : Ev) :
    Seen b (es ++ [e]) i w t := by
  obtain ⟨es1, es2, s1, h1, h2⟩ := h
  exact ⟨es1, es2 ++ [e], s1, by rw [h1, List.append_assoc], h2⟩

/-- The call `c` of thread `i` in progress began when the steady clock showed `n`. -/
def Began (b : Bool) (es : List Ev) (i : Nat) (c : Call) (n : Nat) : Prop :=
  ∃ es1 es2 s1, es = es1 ++ .start i c :: es2 ∧ Run b es1 s1 ∧ s1.now = n ∧ ∀ c', Ev.start i c' ∉ es2

theorem Began.mono {b : Bool} {es : List Ev} {i : Nat} {c : Call} {n : Nat} (h : Began b es i c n) {e : Ev}
    (he : ∀ c', e ≠ .start i c') : Began b (es ++ [e]) i c n := by
  obtain ⟨es1, es2, s1, h1, h2, h3, h4⟩ := h
  refine ⟨es1, es2 ++ [e], s1, by rw [h1]; simp, h2, h3, ?_⟩
  intro c' hc
  simp only [List.mem_append, List.mem_singleton] at hc
  rcases hc with hc | hc
  · exact h4 c' hc
  · exact he c' hc.symm

structure Inv (b : Bool) (es : List Ev) (s : St) : Prop where
  level : s.triggered = levelAfter b es
  owner : ∀ i, holds (s.pc i) = true ↔ s.owner = some i
  /-- no lost notification -/
  wakeup : s.triggered = true → (∃ i, isBlocked (s.pc i) = true) → ∃ j d, s.pc j = .notify d
  waits : ∀ i w, waitOf (s.pc i) = some w → GoodWait w ∧ w.began ≤ s.now ∧ Began b es i w.call w.began
  entries : ∀ i c n, s.pc i = .lockWait c n → IsWait c ∧ n ≤ s.now ∧ Began b es i c n
  timed : ∀ i w, s.pc i = .last w → (∃ t, w.limit = some (.steady t) ∧ t ≤ s.now) ∨
    (∃ t, w.limit = some (.other t) ∧ Seen b es i w t)

theorem holds_goto {s : St} {o : Option Nat} {i : Nat} {p : Pc} (h : ∀ k, holds (s.pc k) = true ↔ s.owner = some k)
    (ho : if holds p then o = some i ∧ s.owner = none else
      o = if holds (s.pc i) then none else s.owner) (k : Nat) :
    holds ((s.goto i p).pc k) = true ↔ o = some k := by
  by_cases hk : k = i
  · subst hk
    rw [goto_same]
    cases hp : holds p with
    | true => rw [hp] at ho; simp at ho; simp [ho.1]
    | false =>
        rw [hp] at ho
        simp only [Bool.false_eq_true, if_false] at ho
        have := h k
        cases hq : holds (s.pc k) <;> rw [hq] at ho this <;> simp at ho <;> simp_all
  · rw [goto_other hk, h k]
    cases hp : holds p with
    | true => rw [hp] at ho; simp at ho; rw [ho.1, ho.2]; simp; omega
    | false =>
        rw [hp] at ho
        simp only [Bool.false_eq_true, if_false] at ho
        have h2 := h i
        cases hq : holds (s.pc i) <;> rw [hq] at ho h2 <;> simp at ho h2
        · rw [ho]
        · rw [ho, h2]; simp; omega

variable {b : Bool} {es : List Ev} {s s' : St} {e : Ev}

theorem inv_goto (h : Inv b es s) {i : Nat} {p : Pc} {o : Option Nat} {tr : Bool} {e : Ev}
    (ho : if holds p then o = some i ∧ s.owner = none else o = if holds (s.pc i) then none else s.owner)
    (hlev : tr = levelAfter b (es ++ [e]))
    (htr : tr = true → s.triggered = true ∨ ∃ d, p = .notify d) (hbl : isBlocked p = true → tr = false)
    (hn : ∀ d, s.pc i ≠ .notify d) (hst : ∀ k c, e = .start k c → k = i)
    (hw : ∀ w, waitOf p = some w → GoodWait w ∧ w.began ≤ s.now ∧ Began b (es ++ [e]) i w.call w.began)
    (he : ∀ c n, p = .lockWait c n → IsWait c ∧ n ≤ s.now ∧ Began b (es ++ [e]) i c n)
    (hl : ∀ w, p = .last w → (∃ t, w.limit = some (.steady t) ∧ t ≤ s.now) ∨
      (∃ t, w.limit = some (.other t) ∧ Seen b es i w t)) :
    Inv b (es ++ [e]) ({ s with owner := o, triggered := tr }.goto i p) where
  level := hlev
  owner := fun k => holds_goto (s := s) h.owner ho k
  wakeup := by
    intro ht hex
    have ht : tr = true := ht
    rcases htr ht with h1 | ⟨d, rfl⟩
    · obtain ⟨k, hk⟩ := hex
      by_cases hki : k = i
      · subst hki
        rw [goto_same] at hk
        rw [hbl hk] at ht; cases ht
      · rw [goto_other hki] at hk
        obtain ⟨j, d, hj⟩ := h.wakeup h1 ⟨k, hk⟩
        refine ⟨j, d, ?_⟩
        rw [goto_other]
        · exact hj
        · rintro rfl; exact hn d hj
    · exact ⟨i, d, goto_same _ _ _⟩
  waits := by
    intro k w hk
    by_cases hki : k = i
    · subst hki; rw [goto_same] at hk; exact hw w hk
    · rw [goto_other hki] at hk
      have := h.waits k w hk
      exact ⟨this.1, this.2.1, this.2.2.mono (fun c' hc => hki (hst k c' hc))⟩
  entries := by
    intro k c n hk
    by_cases hki : k = i
    · subst hki; rw [goto_same] at hk; exact he c n hk
    · rw [goto_other hki] at hk
      have := h.entries k c n hk
      exact ⟨this.1, this.2.1, this.2.2.mono (fun c' hc => hki (hst k c' hc))⟩
  timed := by
    intro k w hk
    by_cases hki : k = i
    · subst hki; rw [goto_same] at hk
      exact (hl w hk).imp id (fun ⟨t, h1, h2⟩ => ⟨t, h1, h2.mono e⟩)
    · rw [goto_other hki] at hk
      exact (h.timed k w hk).imp id (fun ⟨t, h1, h2⟩ => ⟨t, h1, h2.mono e⟩)

theorem inv_notify (h : Inv b es s) {i : Nat} {d : Bool} {p : Pc} (hi : s.pc i = .notify d)
    (hp : p = .idle ∨ p = .die) :
    Inv b (es ++ [.notifyAll i]) { s with pc := fun k => if k = i then p else wake (s.pc k) } where
  level := by rw [levelAfter_append]; exact h.level
  owner := by
    intro k
    simp only
    by_cases hki : k = i
    · subst hki
      have := h.owner k
      rw [hi] at this
      rw [if_pos rfl, ← this]
      rcases hp with rfl | rfl <;> simp [holds]
    · rw [if_neg hki, wake_holds]; exact h.owner k
  wakeup := by
    rintro _ ⟨k, hk⟩
    simp only at hk
    by_cases hki : k = i
    · rw [if_pos hki] at hk
      rcases hp with rfl | rfl <;> simp [isBlocked] at hk
    · rw [if_neg hki, wake_not_blocked] at hk; cases hk
  waits := by
    intro k w hk
    simp only at hk
    by_cases hki : k = i
    · rw [if_pos hki] at hk
      rcases hp with rfl | rfl <;> simp [waitOf] at hk
    · rw [if_neg hki, wake_waitOf] at hk
      have := h.waits k w hk
      exact ⟨this.1, this.2.1, this.2.2.mono (by simp)⟩
  entries := by
    intro k c n hk
    simp only at hk
    by_cases hki : k = i
    · rw [if_pos hki] at hk
      rcases hp with rfl | rfl <;> cases hk
    · rw [if_neg hki] at hk
      have key : s.pc k = .lockWait c n → _ := fun hk => h.entries k c n hk
      suffices hs : s.pc k = .lockWait c n by
        exact ⟨(key hs).1, (key hs).2.1, (key hs).2.2.mono (by simp)⟩
      cases hs : s.pc k <;> rw [hs] at hk <;> simp [wake] at hk ⊢
      exact hk
  timed := by
    intro k w hk
    simp only at hk
    by_cases hki : k = i
    · rw [if_pos hki] at hk
      rcases hp with rfl | rfl <;> cases hk
    · rw [if_neg hki] at hk
      refine (h.timed k w ?_).imp id (fun ⟨t, h1, h2⟩ => ⟨t, h1, h2.mono _⟩)
      cases hs : s.pc k <;> rw [hs] at hk <;> simp [wake] at hk ⊢
      exact hk

theorem goodWait_of (s : St) (c : Call) (n : Nat) (hc : IsWait c) (hn : n ≤ s.now) :
    GoodWait ⟨c, n, limitOf s c⟩ := by
  refine ⟨hc, ?_, ?_, ?_⟩
  · rintro d (rfl | rfl)
    · exact ⟨_, rfl, by simp only; omega⟩
    · exact ⟨_, rfl, by simp only; omega⟩
  · rintro t rfl; rfl
  · rintro rfl; rfl

theorem inv_step (hr : Run b es s) (h : Inv b es s) (hs : Step s e s') : Inv b (es ++ [e]) s' := by
  have hlv : ∀ {e : Ev}, (∀ i c, e ≠ .level i c) → s.triggered = levelAfter b (es ++ [e]) := by
    intro e he
    rw [levelAfter_append, h.level]
    cases e <;> first | rfl | exact absurd rfl (he _ _)
  cases hs with
  | start i c hi =>
      have : s.goto i (entry s c) = { s with owner := s.owner, triggered := s.triggered }.goto i (entry s c) := rfl
      rw [this]
      refine inv_goto h ?_ (hlv (by simp)) (fun h => Or.inl h) ?_ (by simp [hi]) (by simp) ?_ ?_ ?_
      · rw [hi]; cases c <;> simp [entry, holds]
      · cases c <;> simp [entry, isBlocked]
      · cases c <;> simp [entry, waitOf]
      · intro c' n hc
        have : c' = c ∧ n = s.now ∧ IsWait c := by
          cases c <;> simp only [entry] at hc <;> cases hc <;> simp [IsWait]
        obtain ⟨rfl, rfl, hw⟩ := this
        exact ⟨hw, Nat.le_refl _, es, [], s, by simp, hr, rfl, by simp⟩
      · cases c <;> simp [entry]
  | lockTrigger i d ha hi ho =>
      exact inv_goto (p := .setHigh d) h (by simp [holds, ho]) (hlv (by simp)) (fun h => Or.inl h)
        (by simp [isBlocked]) (by simp [hi]) (by simp) (by simp [waitOf]) (by simp) (by simp)
  | setHigh i d ha hi =>
      exact inv_goto (p := .notify d) h (by simp [holds, hi]) (by rw [levelAfter_append])
        (fun _ => Or.inr ⟨d, rfl⟩) (by simp [isBlocked]) (by simp [hi]) (by simp) (by simp [waitOf]) (by simp) (by simp)
  | notify i ha hi => exact inv_notify h hi (Or.inl rfl)
  | notifyDtor i ha hi => exact inv_notify h hi (Or.inr rfl)
  | die i ha hi hb =>
      have := inv_goto (e := .destroyed i) (p := .idle) (o := s.owner) (i := i) h (by simp [holds, hi])
        (hlv (by simp)) (fun h => Or.inl h) (by simp [isBlocked]) (by simp [hi]) (by simp) (by simp [waitOf]) (by simp)
        (by simp)
      exact ⟨this.level, this.owner, this.wakeup, this.waits, this.entries, this.timed⟩
  | dieBlocked i k ha hi hb =>
      exact ⟨hlv (by simp), h.owner, h.wakeup,
        fun i w hw => ⟨(h.waits i w hw).1, (h.waits i w hw).2.1, (h.waits i w hw).2.2.mono (by simp)⟩,
        fun i c n hw => ⟨(h.entries i c n hw).1, (h.entries i c n hw).2.1, (h.entries i c n hw).2.2.mono (by simp)⟩,
        fun i w hw => (h.timed i w hw).imp id (fun ⟨t, h1, h2⟩ => ⟨t, h1, h2.mono _⟩)⟩
  | lockReset i ha hi ho =>
      exact inv_goto (p := .setLow) h (by simp [holds, ho]) (hlv (by simp)) (fun h => Or.inl h)
        (by simp [isBlocked]) (by simp [hi]) (by simp) (by simp [waitOf]) (by simp) (by simp)
  | setLow i ha hi =>
      exact inv_goto (p := .idle) h (by simp [holds, hi]) (by rw [levelAfter_append]) (by simp)
        (by simp [isBlocked]) (by simp [hi]) (by simp) (by simp [waitOf]) (by simp) (by simp)
  | lockRead i ha hi ho =>
      exact inv_goto (p := .reading) h (by simp [holds, ho]) (hlv (by simp)) (fun h => Or.inl h)
        (by simp [isBlocked]) (by simp [hi]) (by simp) (by simp [waitOf]) (by simp) (by simp)
  | read i ha hi =>
      exact inv_goto (p := .idle) h (by simp [holds, hi]) (hlv (by simp)) (fun h => Or.inl h)
        (by simp [isBlocked]) (by simp [hi]) (by simp) (by simp [waitOf]) (by simp) (by simp)
  | lockWait i c n ha hi ho =>
      have hc := h.entries i c n hi
      refine inv_goto (p := .test ⟨c, n, limitOf s c⟩) h (by simp [holds, ho]) (hlv (by simp))
        (fun h => Or.inl h) (by simp [isBlocked]) (by simp [hi]) (by simp) ?_ (by simp) (by simp)
      intro w hw
      simp only [waitOf, Option.some.injEq] at hw
      subst hw
      exact ⟨goodWait_of s c n hc.1 hc.2.1, hc.2.1, hc.2.2.mono (by simp)⟩
  | testTrue i w ha hi ht =>
      exact inv_goto (p := .idle) h (by simp [holds, hi]) (hlv (by simp)) (fun h => Or.inl h)
        (by simp [isBlocked]) (by simp [hi]) (by simp) (by simp [waitOf]) (by simp) (by simp)
  | testFalse i w ha hi ht =>
      refine inv_goto (p := .blocked w) h (by simp [holds, hi]) (hlv (by simp)) (fun h => Or.inl h)
        (fun _ => ht) (by simp [hi]) (by simp) ?_ (by simp) (by simp)
      intro w' hw
      have := h.waits i w' (by rw [hi]; exact hw)
      exact ⟨this.1, this.2.1, this.2.2.mono (by simp)⟩
  | timeout i w d hi hd hp =>
      refine inv_goto (o := s.owner) (p := .woken w) h (by simp [holds, hi]) (hlv (by simp)) (fun h => Or.inl h)
        (by simp [isBlocked]) (by simp [hi]) (by simp) ?_ (by simp) (by simp)
      intro w' hw
      have := h.waits i w' (by rw [hi]; exact hw)
      exact ⟨this.1, this.2.1, this.2.2.mono (by simp)⟩
  | spurious i w hi =>
      refine inv_goto (o := s.owner) (p := .woken w) h (by simp [holds, hi]) (hlv (by simp)) (fun h => Or.inl h)
        (by simp [isBlocked]) (by simp [hi]) (by simp) ?_ (by simp) (by simp)
      intro w' hw
      have := h.waits i w' (by rw [hi]; exact hw)
      exact ⟨this.1, this.2.1, this.2.2.mono (by simp)⟩
  | relock i w ha hi ho =>
      refine inv_goto (p := .test w) h (by simp [holds, ho]) (hlv (by simp)) (fun h => Or.inl h)
        (by simp [isBlocked]) (by simp [hi]) (by simp) ?_ (by simp) (by simp)
      intro w' hw
      have := h.waits i w' (by rw [hi]; exact hw)
      exact ⟨this.1, this.2.1, this.2.2.mono (by simp)⟩
  | relockTimeout i w d ha hi ho hd hp =>
      refine inv_goto (p := .last w) h (by simp [holds, ho]) (hlv (by simp)) (fun h => Or.inl h)
        (by simp [isBlocked]) (by simp [hi]) (by simp) ?_ (by simp) ?_
      · intro w' hw
        have := h.waits i w' (by rw [hi]; exact hw)
        exact ⟨this.1, this.2.1, this.2.2.mono (by simp)⟩
      · intro w' hw
        cases hw
        cases d with
        | steady t => exact Or.inl ⟨t, hd, hp⟩
        | other t => exact Or.inr ⟨t, hd, es, [], s, by simp, hr, hi, hp⟩
  | lastTest i w ha hi =>
      exact inv_goto (p := .idle) h (by simp [holds, hi]) (hlv (by simp)) (fun h => Or.inl h)
        (by simp [isBlocked]) (by simp [hi]) (by simp) (by simp [waitOf]) (by simp) (by simp)
  | tick n m hn =>
      refine ⟨hlv (by simp), h.owner, h.wakeup, ?_, ?_, ?_⟩
      · intro i w hw
        have := h.waits i w hw
        exact ⟨this.1, by simp only; omega, this.2.2.mono (by simp)⟩
      · intro i c k hc
        have := h.entries i c k hc
        exact ⟨this.1, by simp only; omega, this.2.2.mono (by simp)⟩
      · intro i w hw
        refine (h.timed i w hw).imp ?_ (fun ⟨t, h1, h2⟩ => ⟨t, h1, h2.mono _⟩)
        rintro ⟨t, h1, h2⟩
        exact ⟨t, h1, by simp only; omega⟩
  | dead i ha hi =>
      exact ⟨hlv (by simp), h.owner, h.wakeup,
        fun i w hw => ⟨(h.waits i w hw).1, (h.waits i w hw).2.1, (h.waits i w hw).2.2.mono (by simp)⟩,
        fun i c n hw => ⟨(h.entries i c n hw).1, (h.entries i c n hw).2.1, (h.entries i c n hw).2.2.mono (by simp)⟩,
        fun i w hw => (h.timed i w hw).imp id (fun ⟨t, h1, h2⟩ => ⟨t, h1, h2.mono _⟩)⟩

theorem inv_init (b : Bool) : Inv b [] (init b) where
  level := rfl
  owner := by simp [init, holds]
  wakeup := by simp [init, isBlocked]
  waits := by simp [init, waitOf]
  entries := by simp [init]
  timed := by simp [init]

theorem inv_run (h : Run b es s) : Inv b es s := by
  induction h with
  | init => exact inv_init b
  | step h hs ih => exact inv_step h ih hs

/-! ### C59, C62: results -/

/-- **C59.**  The level of the trigger is the one set last. -/
theorem c59_level (h : Run b es s) : s.triggered = levelAfter b es := (inv_run h).level

theorem result_cases {i : Nat} {c : Call} {r : Option Bool} (hs : Step s (.result i c r) s') :
    (c = .read ∧ r = some s.triggered) ∨
    (∃ w, s.pc i = .test w ∧ s.triggered = true ∧ c = w.call ∧ r = value w.call true) ∨
    (∃ w, s.pc i = .last w ∧ c = w.call ∧ r = value w.call s.triggered) := by
  generalize he : Ev.result i c r = e at hs
  cases hs <;> simp only [Ev.result.injEq, reduceCtorEq] at he
  · exact Or.inl he.2
  · rename_i w _ h1 h2
    exact Or.inr (Or.inl ⟨w, by rw [he.1]; exact h1, h2, he.2⟩)
  · rename_i w _ h1
    exact Or.inr (Or.inr ⟨w, by rw [he.1]; exact h1, he.2⟩)

/-- **C59.**  Every call that reports the level reports the one at the moment its result is determined:
wait() returns only if the trigger is high, wait_for, wait_until and operator bool return the level, sleep
its negation. -/
theorem c59_results {i : Nat} {c : Call} {r : Option Bool} (h : Run b es s) (hs : Step s (.result i c r) s') :
    MayReport (levelAfter b es) c r := by
  have hi := inv_run h
  rcases result_cases hs with ⟨rfl, rfl⟩ | ⟨w, hp, ht, rfl, rfl⟩ | ⟨w, hp, rfl, rfl⟩
  · rw [hi.level]; rfl
  · have hw := (hi.waits i w (by rw [hp]; rfl)).1.1
    rw [hi.level] at ht
    rw [ht]
    cases hc : w.call <;> simp [hc, IsWait] at hw <;> simp [value, MayReport]
  · have hw := hi.waits i w (by rw [hp]; rfl)
    have ht := hi.timed i w hp
    have hw1 := hw.1.1
    cases hc : w.call with
    | wait =>
        have := hw.1.2.2.2 hc
        rw [this] at ht
        rcases ht with ⟨t, h, _⟩ | ⟨t, h, _⟩ <;> cases h
    | _ => simp [hc, IsWait] at hw1 <;> simp [value, hi.level, MayReport]

/-- **C59, C62.**  A timed wait reports a low level only after its time: for wait_for and sleep at least
the duration has passed since the call began; for wait_until the clock has shown the given time during
the call. -/
theorem c59_not_early {i : Nat} {c : Call} {r : Option Bool} (h : Run b es s)
    (hs : Step s (.result i c r) s') (hlow : levelAfter b es = false) :
    (∀ d, c = .waitFor d ∨ c = .sleep d → ∃ n, Began b es i c n ∧ n + d ≤ s.now) ∧
    (∀ t, c = .waitUntil t → ∃ w, w.call = c ∧ Seen b es i w t) := by
  have hi := inv_run h
  rcases result_cases hs with ⟨rfl, rfl⟩ | ⟨w, hp, ht, rfl, rfl⟩ | ⟨w, hp, rfl, rfl⟩
  · simp
  · rw [hi.level, hlow] at ht; cases ht
  · have hw := hi.waits i w (by rw [hp]; rfl)
    have ht := hi.timed i w hp
    constructor
    · intro d hc
      obtain ⟨t, h1, h2⟩ := hw.1.2.1 d hc
      rw [h1] at ht
      rcases ht with ⟨t', h, h3⟩ | ⟨t', h, _⟩
      · cases h
        exact ⟨w.began, hw.2.2, by omega⟩
      · cases h
    · intro t hc
      have h1 := hw.1.2.2.1 t hc
      rw [h1] at ht
      rcases ht with ⟨t', h, h3⟩ | ⟨t', h, h3⟩
      · cases h
      · cases h
        exact ⟨w, rfl, h3⟩

/-- **C62.**  sleep returns false exactly if the trigger was high when the sleep ended; it returns true
only if the whole time has passed. -/
theorem c62_sleep {i d : Nat} {r : Option Bool} (h : Run b es s) (hs : Step s (.result i (.sleep d) r) s') :
    (r = some false ↔ levelAfter b es = true) ∧
    (r = some true → ∃ n, Began b es i (.sleep d) n ∧ n + d ≤ s.now) := by
  have h1 : r = some (!levelAfter b es) := c59_results h hs
  subst h1
  constructor
  · cases levelAfter b es <;> simp
  · intro hr
    have hl : levelAfter b es = false := by cases hl : levelAfter b es <;> simp [hl] at hr ⊢
    exact (c59_not_early h hs hl).1 d (Or.inr rfl)

/-! ### C59: no waiter is left asleep -/

/-- **C59.**  As long as the trigger is high, a thread is blocked only while a notification is
pending: some thread is in trigger() between setting the level and notifying. -/
theorem c59_no_lost_wakeup {i : Nat} {w : Wait} (h : Run b es s) (ht : levelAfter b es = true)
    (hb : s.pc i = .blocked w) : ∃ j d, s.pc j = .notify d :=
  (inv_run h).wakeup (by rw [(inv_run h).level]; exact ht) ⟨i, by rw [hb]; rfl⟩

/-- Steps of calls in progress that do not depend on the environment: no new calls, no timeouts, no
spurious wake-ups, no destruction. -/
def Quiet (s s' : St) : Prop :=
  ∃ e, Step s e s' ∧ match e with
    | .internal | .level _ _ | .result _ _ _ | .notifyAll _ => True
    | _ => False

inductive QuietRun (s : St) : Nat → St → Prop
  | nil : QuietRun s 0 s
  | step {n : Nat} {s1 s2 : St} (h : QuietRun s n s1) (hq : Quiet s1 s2) : QuietRun s (n + 1) s2

/-- Sum over the threads below `N`. -/
def total (f : Pc → Nat) (pc : Nat → Pc) : Nat → Nat
  | 0 => 0
  | n + 1 => total f pc n + f (pc n)

/-- Notifications to come. -/
def loud : Pc → Nat
  | .lockTrigger _ => 3
  | .setHigh _ => 2
  | .notify _ => 1
  | _ => 0

/-- Other steps to come. -/
def rest : Pc → Nat
  | .lockReset | .lockRead => 2
  | .setLow | .reading => 1
  | .lockWait _ _ | .woken _ => 3
  | .test _ | .last _ => 2
  | .blocked _ => 1
  | _ => 0

theorem rest_le (p : Pc) : rest p ≤ 3 := by cases p <;> simp [rest]
theorem loud_wake (p : Pc) : loud (wake p) = loud p := by cases p <;> rfl

theorem total_congr {f : Pc → Nat} {pc pc' : Nat → Pc} {N : Nat} (h : ∀ k, k < N → f (pc k) = f (pc' k)) :
    total f pc N = total f pc' N := by
  induction N with
  | zero => rfl
  | succ N ih =>
      simp only [total]
      rw [ih (fun k hk => h k (by omega)), h N (by omega)]

theorem total_le {f : Pc → Nat} {pc : Nat → Pc} {N c : Nat} (h : ∀ p, f p ≤ c) : total f pc N ≤ c * N := by
  induction N with
  | zero => simp [total]
  | succ N ih =>
      simp only [total]
      have := h (pc N)
      rw [Nat.mul_succ]; omega

/-- Changing one thread. -/
theorem total_change {f : Pc → Nat} {pc pc' : Nat → Pc} {i N : Nat} (hi : i < N)
    (h : ∀ k, k ≠ i → f (pc' k) = f (pc k)) : total f pc' N + f (pc i) = total f pc N + f (pc' i) := by
  induction N with
  | zero => omega
  | succ N ih =>
      simp only [total]
      by_cases hN : N = i
      · subst hN
        have : total f pc' N = total f pc N := total_congr (fun k hk => h k (by omega))
        omega
      · have h1 := ih (by omega)
        have := h N hN
        omega

/-- The number of steps that may follow. -/
def budget (N : Nat) (s : St) : Nat := total loud s.pc N * (3 * N + 1) + total rest s.pc N

theorem total_goto {f : Pc → Nat} {i N : Nat} {p : Pc} (hi : i < N) (s : St) :
    total f (s.goto i p).pc N + f (s.pc i) = total f s.pc N + f p := by
  have := total_change (f := f) (pc := s.pc) (pc' := (s.goto i p).pc) hi
    (fun k hk => by rw [goto_other hk])
  rw [goto_same] at this
  exact this

theorem budget_goto {i N : Nat} {p : Pc} {s s' : St} (hidle : ∀ k, N ≤ k → s.pc k = .idle)
    (hne : s.pc i ≠ .idle) (hs' : s'.pc = (s.goto i p).pc)
    (h : loud p < loud (s.pc i) ∨ loud p = loud (s.pc i) ∧ rest p < rest (s.pc i)) :
    budget N s' < budget N s := by
  have hi : i < N := by
    rcases Nat.lt_or_ge i N with h | h
    · exact h
    · exact absurd (hidle i h) hne
  have h1 := total_goto (f := loud) (p := p) hi s
  have h2 := total_goto (f := rest) (p := p) hi s
  unfold budget
  rw [hs']
  have h3 := total_le (f := rest) (pc := (s.goto i p).pc) (N := N) rest_le
  rcases h with h | ⟨h, h'⟩
  · have h4 : total loud (s.goto i p).pc N + 1 ≤ total loud s.pc N := by omega
    have h5 := Nat.mul_le_mul_right (3 * N + 1) h4
    rw [Nat.add_mul] at h5
    omega
  · have h4 : total loud (s.goto i p).pc N = total loud s.pc N := by omega
    rw [h4]; omega

theorem budget_notify {i N : Nat} {d : Bool} {p : Pc} {s : St} (hidle : ∀ k, N ≤ k → s.pc k = .idle)
    (hi : s.pc i = .notify d) (hp : loud p = 0) :
    budget N { s with pc := fun k => if k = i then p else wake (s.pc k) } < budget N s := by
  have hiN : i < N := by
    rcases Nat.lt_or_ge i N with h | h
    · exact h
    · rw [hidle i h] at hi; cases hi
  have h1 := total_change (f := loud) (pc := s.pc) (pc' := fun k => if k = i then p else wake (s.pc k)) hiN
    (fun k hk => by simp only [if_neg hk, loud_wake])
  simp only [if_true] at h1
  rw [hp, hi] at h1
  have hl : loud (.notify d) = 1 := rfl
  rw [hl] at h1
  unfold budget
  simp only
  have h3 := total_le (f := rest) (pc := fun k => if k = i then p else wake (s.pc k)) (N := N) rest_le
  have h4 : total loud (fun k => if k = i then p else wake (s.pc k)) N + 1 ≤ total loud s.pc N := by omega
  have h5 := Nat.mul_le_mul_right (3 * N + 1) h4
  rw [Nat.add_mul] at h5
  omega

theorem quiet_idle {N : Nat} (hidle : ∀ k, N ≤ k → s.pc k = .idle) (hq : Quiet s s') :
    ∀ k, N ≤ k → s'.pc k = .idle := by
  obtain ⟨e, hs, he⟩ := hq
  have key : ∀ i p, s.pc i ≠ .idle → ∀ k, N ≤ k → (s.goto i p).pc k = .idle := by
    intro i p hi k hk
    rw [goto_other]
    · exact hidle k hk
    · rintro rfl; exact hi (hidle k hk)
  have key2 : ∀ i p, s.pc i ≠ .idle → ∀ k, N ≤ k → (if k = i then p else wake (s.pc k)) = .idle := by
    intro i p hi k hk
    have hki : k ≠ i := by rintro rfl; exact hi (hidle k hk)
    rw [if_neg hki, hidle k hk]; rfl
  cases hs <;> first
    | exact he.elim
    | (rename_i hi _; exact key _ _ (by rw [hi]; simp))
    | (rename_i hi; exact key _ _ (by rw [hi]; simp))
    | (rename_i hi _ _ _; exact key _ _ (by rw [hi]; simp))
    | (rename_i hi; exact key2 _ _ (by rw [hi]; simp))

theorem quiet_budget {N : Nat} (hidle : ∀ k, N ≤ k → s.pc k = .idle) (hq : Quiet s s') :
    budget N s' < budget N s := by
  obtain ⟨e, hs, he⟩ := hq
  cases hs with
  | start => exact he.elim
  | lockTrigger i d ha hi ho => exact budget_goto (i := i) hidle (by rw [hi]; simp) rfl (by rw [hi]; simp [loud])
  | setHigh i d ha hi => exact budget_goto (i := i) hidle (by rw [hi]; simp) rfl (by rw [hi]; simp [loud])
  | notify i ha hi => exact budget_notify hidle hi rfl
  | notifyDtor i ha hi => exact budget_notify hidle hi rfl
  | die => exact he.elim
  | dieBlocked => exact he.elim
  | lockReset i ha hi ho => exact budget_goto (i := i) hidle (by rw [hi]; simp) rfl (by rw [hi]; simp [loud, rest])
  | setLow i ha hi => exact budget_goto (i := i) hidle (by rw [hi]; simp) rfl (by rw [hi]; simp [loud, rest])
  | lockRead i ha hi ho => exact budget_goto (i := i) hidle (by rw [hi]; simp) rfl (by rw [hi]; simp [loud, rest])
  | read i ha hi => exact budget_goto (i := i) hidle (by rw [hi]; simp) rfl (by rw [hi]; simp [loud, rest])
  | lockWait i c n ha hi ho => exact budget_goto (i := i) hidle (by rw [hi]; simp) rfl (by rw [hi]; simp [loud, rest])
  | testTrue i w ha hi ht => exact budget_goto (i := i) hidle (by rw [hi]; simp) rfl (by rw [hi]; simp [loud, rest])
  | testFalse i w ha hi ht => exact budget_goto (i := i) hidle (by rw [hi]; simp) rfl (by rw [hi]; simp [loud, rest])
  | timeout => exact he.elim
  | spurious => exact he.elim
  | relock i w ha hi ho => exact budget_goto (i := i) hidle (by rw [hi]; simp) rfl (by rw [hi]; simp [loud, rest])
  | relockTimeout i w d ha hi ho hd hp =>
      exact budget_goto (i := i) hidle (by rw [hi]; simp) rfl (by rw [hi]; simp [loud, rest])
  | lastTest i w ha hi => exact budget_goto (i := i) hidle (by rw [hi]; simp) rfl (by rw [hi]; simp [loud, rest])
  | tick => exact he.elim
  | dead => exact he.elim

theorem quietRun_run {n : Nat} (h : Run b es s) (hq : QuietRun s n s') : ∃ es', Run b (es ++ es') s' := by
  induction hq with
  | nil => exact ⟨[], by simpa using h⟩
  | step _ hq ih =>
      obtain ⟨es', h1⟩ := ih
      obtain ⟨e, hs, _⟩ := hq
      exact ⟨es' ++ [e], by rw [← List.append_assoc]; exact Run.step h1 hs⟩

/-- Only finitely many threads have ever been in a call. -/
theorem run_finite (h : Run b es s) : ∃ N, ∀ k, N ≤ k → s.pc k = .idle := by
  induction h with
  | init => exact ⟨0, fun _ _ => rfl⟩
  | @step es s s' e h hs ih =>
      obtain ⟨N, hN⟩ := ih
      have key : ∀ i p, ∃ N, ∀ k, N ≤ k → (s.goto i p).pc k = .idle := by
        intro i p
        refine ⟨max N (i + 1), fun k hk => ?_⟩
        rw [goto_other (by omega)]; exact hN k (by omega)
      have key2 : ∀ i p, ∃ N, ∀ k, N ≤ k → (if k = i then p else wake (s.pc k)) = .idle := by
        intro i p
        refine ⟨max N (i + 1), fun k hk => ?_⟩
        rw [if_neg (by omega), hN k (by omega)]; rfl
      cases hs <;> first | exact key _ _ | exact key2 _ _ | exact ⟨N, hN⟩

/-- **C59.**  The calls in progress come to an end: in every reachable state there is a bound on the
number of steps that can be made without new calls, timeouts and spurious wake-ups. -/
theorem c59_terminates (h : Run b es s) : ∃ m, ∀ n s', QuietRun s n s' → n ≤ m := by
  obtain ⟨N, hN⟩ := run_finite h
  refine ⟨budget N s, ?_⟩
  have key : ∀ n s', QuietRun s n s' → n + budget N s' ≤ budget N s ∧ ∀ k, N ≤ k → s'.pc k = .idle := by
    intro n s' hq
    induction hq with
    | nil => exact ⟨by omega, hN⟩
    | step _ hq ih =>
        have := quiet_budget ih.2 hq
        exact ⟨by omega, quiet_idle ih.2 hq⟩
  intro n s' hq
  have := (key n s' hq).1
  omega

theorem quiet_alive (hq : Quiet s s') : s'.alive = s.alive := by
  obtain ⟨e, hs, he⟩ := hq
  cases hs <;> first | exact he.elim | rfl

theorem quietRun_alive {n : Nat} (hq : QuietRun s n s') : s'.alive = s.alive := by
  induction hq with
  | nil => rfl
  | step _ hq ih => rw [quiet_alive hq, ih]

/-- A state in which no call can make a step. -/
theorem stuck_idle (h : Run b es s) (ha : s.alive = true) (hst : ∀ s', ¬ Quiet s s') (i : Nat) :
    s.pc i = .idle ∨ s.pc i = .die ∨ (∃ w, s.pc i = .blocked w) ∧ levelAfter b es = false := by
  have hI := inv_run h
  have hown : s.owner = none := by
    cases ho : s.owner with
    | none => rfl
    | some k =>
        have hk := (hI.owner k).mpr ho
        exfalso
        cases hp : s.pc k <;> rw [hp] at hk <;> simp [holds] at hk
        · exact hst _ ⟨_, .setHigh s k _ ha hp, trivial⟩
        · exact hst _ ⟨_, .setLow s k ha hp, trivial⟩
        · exact hst _ ⟨_, .read s k ha hp, trivial⟩
        · cases ht : s.triggered with
          | true => exact hst _ ⟨_, .testTrue s k _ ha hp ht, trivial⟩
          | false => exact hst _ ⟨_, .testFalse s k _ ha hp ht, trivial⟩
        · exact hst _ ⟨_, .lastTest s k _ ha hp, trivial⟩
  have hnot : ∀ j d, s.pc j ≠ .notify d := by
    intro j d hj
    cases d with
    | false => exact hst _ ⟨_, .notify s j ha hj, trivial⟩
    | true => exact hst _ ⟨_, .notifyDtor s j ha hj, trivial⟩
  cases hp : s.pc i with
  | idle => exact Or.inl rfl
  | die => exact Or.inr (Or.inl rfl)
  | blocked w =>
      refine Or.inr (Or.inr ⟨⟨w, rfl⟩, ?_⟩)
      cases ht : levelAfter b es with
      | false => rfl
      | true =>
          obtain ⟨j, d, hj⟩ := c59_no_lost_wakeup h ht hp
          exact absurd hj (hnot j d)
  | lockTrigger d => exact absurd ⟨_, .lockTrigger s i d ha hp hown, trivial⟩ (hst _)
  | lockReset => exact absurd ⟨_, .lockReset s i ha hp hown, trivial⟩ (hst _)
  | lockRead => exact absurd ⟨_, .lockRead s i ha hp hown, trivial⟩ (hst _)
  | lockWait c n => exact absurd ⟨_, .lockWait s i c n ha hp hown, trivial⟩ (hst _)
  | woken w => exact absurd ⟨_, .relock s i w ha hp hown, trivial⟩ (hst _)
  | notify d => exact absurd hp (hnot i d)
  | _ =>
      have := (hI.owner i).mp (by rw [hp]; rfl)
      rw [hown] at this; cases this

/-- **C59, C62.**  If the trigger is high when the calls in progress have come to an end, no thread is
waiting any more (and none is in any other call, except a destructor that has done its notification). -/
theorem c59_resume {n : Nat} (h : Run b es s) (ha : s.alive = true) (hq : QuietRun s n s')
    (hst : ∀ s2, ¬ Quiet s' s2) (ht : s'.triggered = true) (i : Nat) : s'.pc i = .idle ∨ s'.pc i = .die := by
  obtain ⟨es', h'⟩ := quietRun_run h hq
  rcases stuck_idle h' (by rw [quietRun_alive hq, ha]) hst i with h1 | h1 | ⟨_, h2⟩
  · exact Or.inl h1
  · exact Or.inr h1
  · rw [c59_level h', h2] at ht; cases ht

/-- No thread is about to set the level to low. -/
def NoReset (s : St) : Prop := ∀ i, s.pc i ≠ .lockReset ∧ s.pc i ≠ .setLow

theorem quiet_high (hq : Quiet s s') (ht : s.triggered = true) (hn : NoReset s) :
    s'.triggered = true ∧ NoReset s' := by
  obtain ⟨e, hs, he⟩ := hq
  have key : ∀ i p, p ≠ .lockReset → p ≠ .setLow → NoReset (s.goto i p) := by
    intro i p h1 h2 k
    by_cases hk : k = i
    · subst hk; rw [goto_same]; exact ⟨h1, h2⟩
    · rw [goto_other hk]; exact hn k
  have key2 : ∀ i p, p ≠ .lockReset → p ≠ .setLow →
      NoReset { s with pc := fun k => if k = i then p else wake (s.pc k) } := by
    intro i p h1 h2 k
    simp only
    by_cases hk : k = i
    · rw [if_pos hk]; exact ⟨h1, h2⟩
    · rw [if_neg hk]
      have := hn k
      cases hp : s.pc k <;> rw [hp] at this <;> simp_all [wake]
  cases hs with
  | start => exact he.elim
  | lockTrigger i d ha hi ho => exact ⟨ht, key _ _ (by simp) (by simp)⟩
  | setHigh i d ha hi => exact ⟨rfl, key _ _ (by simp) (by simp)⟩
  | notify i ha hi => exact ⟨ht, key2 _ _ (by simp) (by simp)⟩
  | notifyDtor i ha hi => exact ⟨ht, key2 _ _ (by simp) (by simp)⟩
  | die => exact he.elim
  | dieBlocked => exact he.elim
  | lockReset i ha hi ho => exact absurd hi (hn i).1
  | setLow i ha hi => exact absurd hi (hn i).2
  | lockRead i ha hi ho => exact ⟨ht, key _ _ (by simp) (by simp)⟩
  | read i ha hi => exact ⟨ht, key _ _ (by simp) (by simp)⟩
  | lockWait i c n ha hi ho => exact ⟨ht, key _ _ (by simp) (by simp)⟩
  | testTrue i w ha hi ht' => exact ⟨ht, key _ _ (by simp) (by simp)⟩
  | testFalse i w ha hi ht' => exact ⟨ht, key _ _ (by simp) (by simp)⟩
  | timeout => exact he.elim
  | spurious => exact he.elim
  | relock i w ha hi ho => exact ⟨ht, key _ _ (by simp) (by simp)⟩
  | relockTimeout i w d ha hi ho hd hp => exact ⟨ht, key _ _ (by simp) (by simp)⟩
  | lastTest i w ha hi => exact ⟨ht, key _ _ (by simp) (by simp)⟩
  | tick => exact he.elim
  | dead => exact he.elim

/-- **C60** (part).  A trigger resumes every waiting thread if it is not followed by a reset: once the
trigger is high and no reset is in progress, all calls in progress return (there is a bound on the number
of steps, `c59_terminates`), in every schedule. -/
theorem c60_trigger_resumes_partial {n : Nat} (h : Run b es s) (ha : s.alive = true)
    (ht : s.triggered = true) (hn : NoReset s) (hq : QuietRun s n s') (hst : ∀ s2, ¬ Quiet s' s2) (i : Nat) :
    s'.pc i = .idle ∨ s'.pc i = .die := by
  refine c59_resume h ha hq hst ?_ i
  have key : ∀ n s', QuietRun s n s' → s'.triggered = true ∧ NoReset s' := by
    intro n s' hq
    induction hq with
    | nil => exact ⟨ht, hn⟩
    | step _ hq ih => exact quiet_high hq ih.1 ih.2
  exact (key n s' hq).1

/-- **C62.**  A sleep does not last longer than a standing trigger: in every schedule the sleeping thread
returns within the bounded number of steps of `c59_terminates`, without its timeout, and reports the
interruption. -/
theorem c62_standing_trigger {n : Nat} (h : Run b es s) (ha : s.alive = true) (ht : s.triggered = true)
    (hn : NoReset s) (hq : QuietRun s n s') :
    ((∀ s2, ¬ Quiet s' s2) → ∀ i, s'.pc i = .idle ∨ s'.pc i = .die) ∧
    ∀ i d r s2, Step s' (.result i (.sleep d) r) s2 → r = some false := by
  refine ⟨fun hst i => c60_trigger_resumes_partial h ha ht hn hq hst i, ?_⟩
  intro i d r s2 hs
  obtain ⟨es', h'⟩ := quietRun_run h hq
  refine (c62_sleep h' hs).1.mpr ?_
  rw [← c59_level h']
  have key : ∀ n s', QuietRun s n s' → s'.triggered = true ∧ NoReset s' := by
    intro n s' hq
    induction hq with
    | nil => exact ⟨ht, hn⟩
    | step _ hq ih => exact quiet_high hq ih.1 ih.2
  exact (key n s' hq).1

/-- A thread that has set the trigger to high from its destructor. -/
def Dying (s : St) (i : Nat) : Prop := s.pc i = .die ∨ s.pc i = .notify true

/-- **C61** (part).  When the destructor has sent its signal, all calls in progress return in every
schedule, if the destructor does not finish before (which nothing prevents,
`c61_destroyed_too_early_violated`) and no thread resets the trigger. -/
theorem c61_destructor_resumes_partial {n j : Nat} (h : Run b es s) (ha : s.alive = true)
    (_hd : Dying s j) (ht : s.triggered = true) (hn : NoReset s) (hq : QuietRun s n s')
    (hst : ∀ s2, ¬ Quiet s' s2) (i : Nat) : s'.pc i = .idle ∨ s'.pc i = .die :=
  c60_trigger_resumes_partial h ha ht hn hq hst i

/-! ### Violations and examples -/

/-- **C60 is violated**: a trigger() followed by a reset() that comes before the waiting thread has
reacquired the mutex does not resume the waiting thread.  At the end both calls have returned, thread 1
is blocked, and no call can make a step. -/
theorem c60_pulse_lost_violated : ∃ s, Run false
    [.start 1 .wait, .internal, .internal, .start 2 .trigger, .internal, .level 2 true, .notifyAll 2,
     .start 2 .reset, .internal, .level 2 false, .internal, .internal] s ∧
    s.pc 1 = .blocked ⟨.wait, 0, none⟩ ∧ s.pc 2 = .idle ∧ ∀ s', ¬ Quiet s s' := by
  have r1 := Run.step Run.init (Step.start (init false) 1 .wait rfl)
  have r2 := Run.step r1 (Step.lockWait _ 1 .wait 0 rfl rfl rfl)
  have r3 := Run.step r2 (Step.testFalse _ 1 _ rfl rfl rfl)
  have r4 := Run.step r3 (Step.start _ 2 .trigger rfl)
  have r5 := Run.step r4 (Step.lockTrigger _ 2 false rfl rfl rfl)
  have r6 := Run.step r5 (Step.setHigh _ 2 false rfl rfl)
  have r7 := Run.step r6 (Step.notify _ 2 rfl rfl)
  have r8 := Run.step r7 (Step.start _ 2 .reset rfl)
  have r9 := Run.step r8 (Step.lockReset _ 2 rfl rfl rfl)
  have r10 := Run.step r9 (Step.setLow _ 2 rfl rfl)
  have r11 := Run.step r10 (Step.relock _ 1 ⟨.wait, 0, none⟩ rfl rfl rfl)
  have r12 := Run.step r11 (Step.testFalse _ 1 _ rfl rfl rfl)
  refine ⟨_, r12, rfl, rfl, ?_⟩
  have hpc : ∀ (s : St), (∀ k, s.pc k = .idle ∨ ∃ w, s.pc k = .blocked w) → ∀ s', ¬ Quiet s s' := by
    rintro s hs s' ⟨e, hstep, he⟩
    cases hstep <;> first
      | exact he.elim
      | (rename_i i _ _ hi; rcases hs i with h | ⟨w, h⟩ <;> rw [hi] at h <;> cases h)
      | (rename_i i _ hi; rcases hs i with h | ⟨w, h⟩ <;> rw [hi] at h <;> cases h)
      | (rename_i i _ _ hi _; rcases hs i with h | ⟨w, h⟩ <;> rw [hi] at h <;> cases h)
      | (rename_i i _ hi _; rcases hs i with h | ⟨w, h⟩ <;> rw [hi] at h <;> cases h)
      | (rename_i i _ _ _ hi _; rcases hs i with h | ⟨w, h⟩ <;> rw [hi] at h <;> cases h)
      | (rename_i i _ _ _ hi _ _ _; rcases hs i with h | ⟨w, h⟩ <;> rw [hi] at h <;> cases h)
  apply hpc
  intro k
  by_cases h1 : k = 1
  · subst h1; exact Or.inr ⟨_, rfl⟩
  · by_cases h2 : k = 2
    · subst h2; exact Or.inl rfl
    · refine Or.inl ?_
      simp [St.goto, h1, h2, init, wake]

/-- **C61 is violated**: the destructor does not wait for the threads it has resumed; they then lock the
mutex of an object that no longer exists. -/
theorem c61_destroyed_too_early_violated : ∃ s, Run false
    [.start 1 .wait, .internal, .internal, .start 2 .destroy, .internal, .level 2 true, .notifyAll 2,
     .destroyed 2, .deadAccess 1] s ∧ s.err = true := by
  have r1 := Run.step Run.init (Step.start (init false) 1 .wait rfl)
  have r2 := Run.step r1 (Step.lockWait _ 1 .wait 0 rfl rfl rfl)
  have r3 := Run.step r2 (Step.testFalse _ 1 _ rfl rfl rfl)
  have r4 := Run.step r3 (Step.start _ 2 .destroy rfl)
  have r5 := Run.step r4 (Step.lockTrigger _ 2 true rfl rfl rfl)
  have r6 := Run.step r5 (Step.setHigh _ 2 true rfl rfl)
  have r7 := Run.step r6 (Step.notifyDtor _ 2 rfl rfl)
  have r8 := Run.step r7 (Step.die _ 2 rfl rfl (by
    intro k
    by_cases h1 : k = 1
    · subst h1; rfl
    · by_cases h2 : k = 2
      · subst h2; rfl
      · simp [St.goto, h1, h2, init, wake, isBlocked]))
  have r9 := Run.step r8 (Step.dead _ 1 rfl rfl)
  exact ⟨_, r9, rfl⟩

/-- The hypotheses of `c59_results`, `c59_not_early` and `c62_sleep` are met: a sleep that is not
interrupted and one that is. -/
example : ∃ s s', Run false
    [.start 1 (.sleep 5), .internal, .internal, .tick, .timeout 1, .internal] s ∧
    Step s (.result 1 (.sleep 5) (some true)) s' := by
  have r1 := Run.step Run.init (Step.start (init false) 1 (.sleep 5) rfl)
  have r2 := Run.step r1 (Step.lockWait _ 1 (.sleep 5) 0 rfl rfl rfl)
  have r3 := Run.step r2 (Step.testFalse _ 1 _ rfl rfl rfl)
  have r4 := Run.step r3 (Step.tick _ 7 3 (by decide))
  have r5 := Run.step r4 (Step.timeout _ 1 _ (.steady 5) rfl rfl (by show 5 ≤ 7; decide))
  have r6 := Run.step r5 (Step.relockTimeout _ 1 ⟨.sleep 5, 0, some (.steady 5)⟩ (.steady 5) rfl rfl rfl rfl
    (by show 5 ≤ 7; decide))
  exact ⟨_, _, r6, Step.lastTest _ 1 ⟨.sleep 5, 0, some (.steady 5)⟩ rfl rfl⟩

example : ∃ s s', Run false
    [.start 1 (.sleep 5), .internal, .internal, .start 2 .trigger, .internal, .level 2 true, .notifyAll 2,
     .internal] s ∧ Step s (.result 1 (.sleep 5) (some false)) s' := by
  have r1 := Run.step Run.init (Step.start (init false) 1 (.sleep 5) rfl)
  have r2 := Run.step r1 (Step.lockWait _ 1 (.sleep 5) 0 rfl rfl rfl)
  have r3 := Run.step r2 (Step.testFalse _ 1 _ rfl rfl rfl)
  have r4 := Run.step r3 (Step.start _ 2 .trigger rfl)
  have r5 := Run.step r4 (Step.lockTrigger _ 2 false rfl rfl rfl)
  have r6 := Run.step r5 (Step.setHigh _ 2 false rfl rfl)
  have r7 := Run.step r6 (Step.notify _ 2 rfl rfl)
  have r8 := Run.step r7 (Step.relock _ 1 ⟨.sleep 5, 0, some (.steady 5)⟩ rfl rfl rfl)
  exact ⟨_, _, r8, Step.testTrue _ 1 ⟨.sleep 5, 0, some (.steady 5)⟩ rfl rfl rfl⟩

/-- The hypotheses of `c59_no_lost_wakeup` are met: thread 1 is blocked, thread 2 has set the level. -/
example : ∃ s, Run false
    [.start 1 .wait, .internal, .internal, .start 2 .trigger, .internal, .level 2 true] s ∧
    s.pc 1 = .blocked ⟨.wait, 0, none⟩ ∧ s.alive = true ∧ s.triggered = true ∧ NoReset s := by
  have r1 := Run.step Run.init (Step.start (init false) 1 .wait rfl)
  have r2 := Run.step r1 (Step.lockWait _ 1 .wait 0 rfl rfl rfl)
  have r3 := Run.step r2 (Step.testFalse _ 1 _ rfl rfl rfl)
  have r4 := Run.step r3 (Step.start _ 2 .trigger rfl)
  have r5 := Run.step r4 (Step.lockTrigger _ 2 false rfl rfl rfl)
  have r6 := Run.step r5 (Step.setHigh _ 2 false rfl rfl)
  refine ⟨_, r6, rfl, rfl, rfl, ?_⟩
  intro k
  by_cases h1 : k = 1
  · subst h1; exact ⟨by simp [St.goto], by simp [St.goto]⟩
  · by_cases h2 : k = 2
    · subst h2; exact ⟨by simp [St.goto], by simp [St.goto]⟩
    · constructor <;> simp [St.goto, h1, h2, init]

end Gul14.Trigger
