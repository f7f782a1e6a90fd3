import Verif.ThreadPool.Witness

/-!
# Tasks with a delay (C106)

The overloads of add_task compute the start time and call add_task(fct, start_time, name), whose model is the operation
`.add`.  Times are counts of nanoseconds of the system clock (TimePoint, ThreadPool.h:245, as in libstdc++), stored in 64
bits.
-/
namespace Gul14.Pool
open Spec.Pool

/-- The values of a std::int64_t. -/
def int64 (x : Int) : Prop := -2 ^ 63 ≤ x ∧ x < 2 ^ 63

instance (x : Int) : Decidable (int64 x) := inferInstanceAs (Decidable (_ ∧ _))

/-- What add_task is given to choose the start time. -/
inductive When where
  /-- a start time, ThreadPool.h:300-351 -/
  | at_ (t : Int)
  /-- nothing, or only a name: `TimePoint{}`, ThreadPool.h:302, 346, 371-385 -/
  | none
  /-- a delay of `count` units of `unit` nanoseconds, ThreadPool.h:353-369 -/
  | delay (count : Int) (unit : Nat)

/-- The start time that is passed on.  A delay is converted to nanoseconds (Duration, ThreadPool.h:246; the implicit
conversion of std::chrono multiplies) and added to the clock (359, 368); overflow of these operations is undefined. -/
def startTime (now : Int) : When → Res Int
  | .at_ t => .ok t
  | .none => .ok 0
  | .delay count unit =>
      if int64 (count * unit) then
        if int64 (now + count * unit) then .ok (now + count * unit) else .ub
      else .ub

variable {cfg : Cfg} {es : List Ev} {s : St}

theorem startTime_delay {now count start : Int} {unit : Nat} (h : startTime now (.delay count unit) = .ok start) :
    start = now + count * unit := by
  simp only [startTime] at h
  split at h
  · split at h
    · exact (Res.ok.inj h).symm
    · cases h
  · cases h

theorem accepted_of_added {c : Who} {t : Task} {l : List Ev} (h : Ev.added c t ∈ l) : t ∈ accepted l := by
  induction l with
  | nil => cases h
  | cons x xs ih =>
    rcases List.mem_cons.mp h with h | h
    · rw [← h]; simp [accepted]
    · have := ih h
      cases x <;> simp only [accepted, List.mem_cons] <;> first | exact this | exact Or.inr this

theorem eq_of_nodup_map {α β : Type} {f : α → β} {l : List α} (hn : (l.map f).Nodup) {x y : α} (hx : x ∈ l)
    (hy : y ∈ l) (h : f x = f y) : x = y := by
  induction l with
  | nil => cases hx
  | cons a l ih =>
    rw [List.map_cons, List.nodup_cons] at hn
    rcases List.mem_cons.mp hx with rfl | hx'
    · rcases List.mem_cons.mp hy with rfl | hy'
      · rfl
      · exact absurd (h ▸ List.mem_map_of_mem hy') hn.1
    · rcases List.mem_cons.mp hy with rfl | hy'
      · exact absurd (h ▸ List.mem_map_of_mem hx') hn.1
      · exact ih hn.2 hx' hy'

/-- **C106** (part).  A task that was added with a delay does not start before the delay is over, counted from the time at
which add_task read the clock (after the events `a`), if the start time can be represented.  -/
theorem c106_delay_partial {a b : List Ev} {c : Who} {t : Task} {w : Nat} {now count : Int} {unit : Nat}
    (h : Run cfg es s) (hsm : Small es) (hes : es = a ++ b) (hadd : Ev.added c t ∈ b)
    (hst : startTime (clockAfter 0 a) (.delay count unit) = .ok t.start) (hrun : Ev.started w t.id now ∈ es) :
    clockAfter 0 a + count * unit ≤ now := by
  have e := startTime_delay hst
  obtain ⟨t', a', b', d', ht', hid, -, -, hle⟩ := c51_not_early h hsm hrun
  have ht : t ∈ accepted es := accepted_of_added (by rw [hes]; exact List.mem_append_right _ hadd)
  have htt : t = t' := eq_of_nodup_map (c56_consistent h hsm).2.2.2 ht ht' hid.symm
  rw [← htt] at hle
  omega

/-- **C106.**  Without a start time and without a delay a task is due at once, at any time after 1970; with a delay that is
not positive it is due at once at any time; and a delay is over exactly when its time has passed. -/
theorem c106_due (now clock count : Int) (unit : Nat) (start : Int) :
    (startTime now .none = .ok start → 0 ≤ clock → start ≤ clock) ∧
    (startTime now (.delay count unit) = .ok start → (start ≤ clock ↔ count * unit ≤ clock - now)) ∧
    (startTime now (.delay count unit) = .ok start → count ≤ 0 → start ≤ now) := by
  refine ⟨?_, ?_, ?_⟩
  · intro h h0
    cases h
    exact h0
  · intro h
    have := startTime_delay h
    omega
  · intro h h0
    have := startTime_delay h
    have : count * unit ≤ 0 := Int.mul_nonpos_of_nonpos_of_nonneg h0 (Int.natCast_nonneg _)
    omega

/-- **C106.**  The start time is defined exactly for the delays that end before the last time that can be represented. -/
theorem c106_defined (now count : Int) (unit : Nat) (hn : int64 now) (h0 : 0 ≤ now) (hc : 0 ≤ count) :
    startTime now (.delay count unit) ≠ .ub ↔ now + count * unit < 2 ^ 63 := by
  have : 0 ≤ count * (unit : Int) := Int.mul_nonneg hc (Int.natCast_nonneg _)
  simp only [startTime]
  have hn' : -2 ^ 63 ≤ now ∧ now < 2 ^ 63 := hn
  constructor
  · intro h
    rcases Int.lt_or_le (now + count * unit) (2 ^ 63) with h1 | h1
    · exact h1
    · exfalso
      apply h
      have n2 : ¬ int64 (now + count * unit) := fun x => by have := x.2; omega
      by_cases h2 : int64 (count * unit)
      · rw [if_pos h2, if_neg n2]
      · rw [if_neg h2]
  · intro h
    have p1 : int64 (count * unit) := ⟨by omega, by omega⟩
    have p2 : int64 (now + count * unit) := ⟨by omega, by omega⟩
    rw [if_pos p1, if_pos p2]
    simp

/-- **C106.**  A delay of Duration::max(), or of three million hours, is undefined behaviour at every time after 1970. -/
theorem c106_delay_violated (now : Int) (hn : int64 now) (h0 : 0 < now) :
    startTime now (.delay (2 ^ 63 - 1) 1) = .ub ∧ startTime now (.delay 3000000 3600000000000) = .ub := by
  simp only [startTime]
  constructor
  · have n2 : ¬ int64 (now + (2 ^ 63 - 1) * ((1 : Nat) : Int)) := fun x => by have := x.2; omega
    rw [if_neg n2]
    split <;> rfl
  · have n2 : ¬ int64 (3000000 * ((3600000000000 : Nat) : Int)) := by decide
    rw [if_neg n2]

/-! ### Examples -/

/-- In November 2026 a delay of ten minutes. -/
example : startTime 1794787200000000000 (.delay 10 60000000000) = .ok 1794787800000000000 := by decide +kernel

/-- An execution in which a task with a delay of 5 is added at time 3 and started at time 8: the hypotheses of
`c106_delay_partial`. -/
example : ∃ es s a b, Run ⟨1, 4⟩ es s ∧ Small es ∧ es = a ++ b ∧ clockAfter 0 a = 3 ∧
    startTime 3 (.delay 5 1) = .ok 8 ∧ Ev.added (.ext 0) ⟨0, [65], 8⟩ ∈ b ∧ Ev.started 0 0 8 ∈ es := by
  obtain ⟨es, s, hr, -, h⟩ := play_exists (cfg := ⟨1, 4⟩) (L := [.ext 0])
    [.tick 3, .begin (.ext 0) true (.add [65] 8), .body (.ext 0), .notifyNone (.ext 0), .worker 0, .worker 0, .worker 0,
      .tick 8, .timeout 0, .worker 0, .worker 0, .worker 0]
    (P := fun es s => Small es ∧ clockAfter 0 (es.take 1) = 3 ∧ Ev.added (.ext 0) ⟨0, [65], 8⟩ ∈ es.drop 1 ∧
      Ev.started 0 0 8 ∈ es)
    (by decide +kernel)
  exact ⟨es, s, es.take 1, es.drop 1, hr, h.1, (List.take_append_drop 1 es).symm, h.2.1, by decide +kernel, h.2.2.1,
    h.2.2.2⟩

end Gul14.Pool
