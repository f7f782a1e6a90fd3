/-!
# Trigger: no data races

What each function of a trigger reads and writes, and with the mutex or without. The contents of the variables are left out
(`Model.lean`): at a branch, every way is possible.
-/
namespace Gul14.Trigger.Race

/-- The members, Trigger.h:219-221. -/
inductive Var where
  | mutex | cv | triggered
  deriving DecidableEq, Repr

/-- What a thread does. `acc true x` writes or destroys the member `x`, `acc false x` reads or uses it. Trigger.cc:28-76. -/
inductive Act where
  | lock
  | unlock
  | acc (write : Bool) (x : Var)
  /-- The loop of a wait with a predicate, Trigger.cc:75. -/
  | waiting
  deriving DecidableEq, Repr

/-- The functions: trigger() and operator=(true); reset() and operator=(false); operator bool; the three waits. -/
inductive Call where
  | trigger | reset | read | wait
  deriving DecidableEq, Repr

/-- What they do, Trigger.cc:33-76 and Trigger.h:189-216. -/
def Call.acts : Call → List Act
  | .trigger => [.lock, .acc true .triggered, .unlock, .acc false .cv]
  | .reset => [.lock, .acc true .triggered, .unlock]
  | .read => [.lock, .acc false .triggered, .unlock]
  | .wait => [.lock, .waiting]

/-- One round of the loop in a wait: the predicate is true or the time is over; or the thread sleeps without the mutex. Trigger.cc:75,
Trigger.h:192 and 215. -/
def round (again : Bool) : List Act :=
  if again then [.acc false .triggered, .acc false .cv, .unlock, .lock, .waiting] else [.acc false .triggered, .unlock]

/-- The destructor, Trigger.cc:28-31: trigger(), then the members are destroyed. -/
def dtor : List Act :=
  [.lock, .acc true .triggered, .unlock, .acc false .cv, .acc true .triggered, .acc true .cv, .acc true .mutex]

/-- Whether the destructor has not been called, the owner of the mutex and what each thread has to do. The members of Trigger.h:219-221. -/
structure St where
  alive : Bool
  owner : Option Nat
  todo : Nat → List Act

/-- Thread `c` has to do `l` next. -/
def St.set (s : St) (c : Nat) (l : List Act) : St := { s with todo := fun k => if k = c then l else s.todo k }

/-- One step of thread `c`. The destructor is called when no other function of the trigger is being executed (otherwise: C61), and no
function is called after it. Trigger.cc:28-76. -/
inductive Step : St → Nat → St → Prop
  | call {s c} (a : Call) (hp : s.alive = true) (h : s.todo c = []) : Step s c (s.set c a.acts)
  | destroy {s c} (hp : s.alive = true) (h : ∀ k, s.todo k = []) : Step s c ({ s with alive := false }.set c dtor)
  | lock {s c} (r : List Act) (h : s.todo c = .lock :: r) (ho : s.owner = none) : Step s c ({ s with owner := some c }.set c r)
  | unlock {s c} (r : List Act) (h : s.todo c = .unlock :: r) : Step s c ({ s with owner := none }.set c r)
  | acc {s c} (w : Bool) (x : Var) (r : List Act) (h : s.todo c = .acc w x :: r) : Step s c (s.set c r)
  | waiting {s c} (r : List Act) (b : Bool) (h : s.todo c = .waiting :: r) : Step s c (s.set c (round b ++ r))

/-- The states that can be reached. Trigger.cc:28-76. -/
inductive Run : St → Prop
  | init : Run ⟨true, none, fun _ => []⟩
  | step {s s' : St} {c : Nat} (h : Run s) (hs : Step s c s') : Run s'

/-! ### Specification -/

/-- The variable that the next action uses, and whether it writes it; to lock and unlock uses the mutex. -/
def uses : List Act → Option (Bool × Var)
  | .acc w x :: _ => some (w, x)
  | .lock :: _ => some (false, .mutex)
  | .unlock :: _ => some (false, .mutex)
  | _ => none

/-- Two threads are about to use the same variable, and one of them writes it. -/
def DataRace (s : St) : Prop :=
  ∃ c k x w w', c ≠ k ∧ uses (s.todo c) = some (w, x) ∧ uses (s.todo k) = some (w', x) ∧ (w = true ∨ w' = true)

/-! ### Invariant -/

/-- The flag is only used with the mutex, the other members are not written. -/
def fine : Bool → List Act → Bool
  | b, [] => !b
  | b, .lock :: r => !b && fine true r
  | b, .unlock :: r => b && fine false r
  | b, .acc w x :: r => (match x with | .triggered => b | _ => !w) && fine b r
  | b, .waiting :: r => b && r.isEmpty

theorem fine_uses {b : Bool} {l : List Act} (h : fine b l = true) {w : Bool} {x : Var} (hu : uses l = some (w, x)) :
    (x = .triggered → b = true) ∧ (x ≠ .triggered → w = false) := by
  cases l with
  | nil => simp [uses] at hu
  | cons a r =>
    cases a with
    | acc w' x' =>
        simp only [uses, Option.some.injEq, Prod.mk.injEq] at hu
        obtain ⟨rfl, rfl⟩ := hu
        simp only [fine, Bool.and_eq_true] at h
        cases w' <;> cases x' <;> simp_all
    | lock =>
        simp only [uses, Option.some.injEq, Prod.mk.injEq] at hu
        obtain ⟨rfl, rfl⟩ := hu
        simp
    | unlock =>
        simp only [uses, Option.some.injEq, Prod.mk.injEq] at hu
        obtain ⟨rfl, rfl⟩ := hu
        simp
    | waiting => simp [uses] at hu

/-- A thread owns the mutex. -/
def St.has (s : St) (c : Nat) : Bool := decide (s.owner = some c)

theorem set_has (s : St) (c k : Nat) (l : List Act) : (s.set c l).has k = s.has k := rfl

theorem set_todo (s : St) (c k : Nat) (l : List Act) : (s.set c l).todo k = if k = c then l else s.todo k := rfl

/-- What holds at any time: the threads are fine, or one of them executes the destructor and the others do nothing. -/
def Inv (s : St) : Prop :=
  (s.alive = true ∧ ∀ c, fine (s.has c) (s.todo c) = true) ∨
  (s.alive = false ∧ ∃ c, ∀ k, k ≠ c → s.todo k = [])

theorem inv_step {s s' : St} {c : Nat} (hs : Step s c s') (hi : Inv s) : Inv s' := by
  rcases hi with ⟨ha, hf⟩ | ⟨ha, d, hd⟩
  · have hc := hf c
    cases hs with
    | call a hp h =>
        left
        refine ⟨ha, fun k => ?_⟩
        by_cases e : k = c
        · subst e
          rw [h] at hc
          have : s.has k = false := by simpa [fine] using hc
          rw [set_has, this]; simp only [set_todo, if_true]
          cases a <;> decide
        · simpa only [set_has, set_todo, if_neg e] using hf k
    | destroy hp h =>
        right
        exact ⟨rfl, c, fun k hk => by simpa [St.set, hk] using h k⟩
    | lock r h ho =>
        left
        refine ⟨ha, fun k => ?_⟩
        simp only [St.set]
        by_cases e : k = c
        · subst e
          rw [h] at hc
          simp only [fine, Bool.and_eq_true] at hc
          simpa [St.has] using hc.2
        · have := hf k
          have e' : ¬ c = k := fun x => e x.symm
          simpa [St.has, e, e', ho] using this
    | unlock r h =>
        left
        rw [h] at hc
        simp only [fine, St.has, Bool.and_eq_true, decide_eq_true_eq] at hc
        refine ⟨ha, fun k => ?_⟩
        simp only [St.set]
        by_cases e : k = c
        · subst e; simpa [St.has] using hc.2
        · have := hf k
          have e' : ¬ c = k := fun x => e x.symm
          simpa [St.has, e, e', hc.1] using this
    | acc w x r h =>
        left
        rw [h] at hc
        simp only [fine, Bool.and_eq_true] at hc
        refine ⟨ha, fun k => ?_⟩
        by_cases e : k = c
        · subst e; simpa only [set_has, set_todo, if_true] using hc.2
        · simpa only [set_has, set_todo, if_neg e] using hf k
    | waiting r b h =>
        left
        rw [h] at hc
        simp only [fine, Bool.and_eq_true, List.isEmpty_iff] at hc
        obtain ⟨h1, rfl⟩ := hc
        refine ⟨ha, fun k => ?_⟩
        by_cases e : k = c
        · subst e
          have : (s.set k (round b ++ [])).has k = true := h1
          rw [this]; simp only [St.set, if_true]
          cases b <;> decide
        · simpa only [set_has, set_todo, if_neg e] using hf k
  · right
    have key : ∀ {a r}, s.todo c = a :: r → c = d := by
      intro a r h
      by_cases e : c = d
      · exact e
      · rw [hd c e] at h; cases h
    cases hs with
    | call a hp h => rw [ha] at hp; cases hp
    | destroy hp h => rw [ha] at hp; cases hp
    | lock r h ho => have := key h; subst this; exact ⟨ha, c, fun k hk => by simpa [St.set, hk] using hd k hk⟩
    | unlock r h => have := key h; subst this; exact ⟨ha, c, fun k hk => by simpa [St.set, hk] using hd k hk⟩
    | acc w x r h => have := key h; subst this; exact ⟨ha, c, fun k hk => by simpa [St.set, hk] using hd k hk⟩
    | waiting r b h => have := key h; subst this; exact ⟨ha, c, fun k hk => by simpa [St.set, hk] using hd k hk⟩

theorem inv_run {s : St} (h : Run s) : Inv s := by
  induction h with
  | init => exact Or.inl ⟨rfl, fun c => by simp [St.has, fine]⟩
  | step _ hs ih => exact inv_step hs ih

/-- C115: there is never a data race on a member of a trigger. Whatever functions of the trigger the threads call, and however they take
turns, no two threads are ever about to use the same member with one of them writing or destroying it, provided that the destructor
runs alone. -/
theorem c115_trigger {s : St} (h : Run s) : ¬ DataRace s := by
  rintro ⟨c, k, x, w, w', hck, u1, u2, hww⟩
  rcases inv_run h with ⟨_, hf⟩ | ⟨_, d, hd⟩
  · have f1 := fine_uses (hf c) u1
    have f2 := fine_uses (hf k) u2
    by_cases hx : x = .triggered
    · have a := f1.1 hx
      have b := f2.1 hx
      simp only [St.has, decide_eq_true_eq] at a b
      rw [a] at b
      injection b with b
      exact hck b
    · rw [f1.2 hx, f2.2 hx] at hww
      simp at hww
  · have : s.todo c = [] ∨ s.todo k = [] := by
      by_cases e : c = d
      · exact Or.inr (hd k (fun x => hck (e.trans x.symm)))
      · exact Or.inl (hd c e)
    rcases this with h | h
    · rw [h] at u1; simp [uses] at u1
    · rw [h] at u2; simp [uses] at u2

/-- Thread 1 waits, thread 2 is about to set the flag, thread 3 wants to read it. -/
example : ∃ s, Run s ∧ uses (s.todo 1) = some (false, .mutex) ∧ uses (s.todo 2) = some (true, .triggered) ∧ uses (s.todo 3) = some (false, .mutex) := by
  have r1 := Run.step .init (.call (c := 1) .wait rfl rfl)
  have r2 := Run.step r1 (.lock (c := 1) [.waiting] rfl rfl)
  have r3 := Run.step r2 (.waiting (c := 1) [] true rfl)
  have r4 := Run.step r3 (.acc (c := 1) false .triggered [.acc false .cv, .unlock, .lock, .waiting] rfl)
  have r5 := Run.step r4 (.acc (c := 1) false .cv [.unlock, .lock, .waiting] rfl)
  have r6 := Run.step r5 (.unlock (c := 1) [.lock, .waiting] rfl)
  have r7 := Run.step r6 (.call (c := 2) .trigger rfl rfl)
  have r8 := Run.step r7 (.lock (c := 2) [.acc true .triggered, .unlock, .acc false .cv] rfl rfl)
  have r9 := Run.step r8 (.call (c := 3) .read rfl rfl)
  exact ⟨_, r9, rfl, rfl, rfl⟩

end Gul14.Trigger.Race
