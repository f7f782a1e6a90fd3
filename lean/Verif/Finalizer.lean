import Verif.Basic

/-!
# FinalAction / finally, include/gul14/finalizer.h

The actions given to `finally()` are numbered 0, 1, 2, … in the order of their creation.  Objects
live in numbered slots (variables).  A history is any sequence of creations, move constructions,
move assignments and destructions.
-/
namespace Gul14.Finalizer

/-- FinalAction's members action_ and invoke_, finalizer.h:107-108.  `none` is a closure in
moved-from state, which must not be called. -/
structure Obj where
  action : Option Nat
  invoke : Bool
  deriving DecidableEq, Repr

/-- All variables of the program (`none`: no object there), the actions executed so far, oldest first,
and the number of actions created so far. The members of FinalAction, finalizer.h:105-155. -/
structure State where
  objs : Nat → Option Obj
  log : List Nat
  next : Nat

/-- What a program can do with FinalAction objects. The constructors and the destructor of FinalAction
and finally(), finalizer.h:105-155. -/
inductive Op where
  | create (i : Nat)
  | moveCtor (i j : Nat)
  | moveAssign (i j : Nat)
  | destroy (i : Nat)
  deriving DecidableEq, Repr

/-- Properties of the closures: whether moving from a closure leaves it intact (as for function
pointers and lambdas without non-trivial captures), and which actions throw. -/
structure Env where
  moveCopies : Bool
  throws : Nat → Bool

/-- Language semantics of the members of finalizer.h:105-155. -/
def State.set (s : State) (i : Nat) (o : Option Obj) : State :=
  { s with objs := fun k => if k = i then o else s.objs k }

/-- std::move applied to the closure of a FinalAction. finalizer.h:105-155: the flag of an object that
has been moved from. -/
def movedFrom (e : Env) (a : Option Nat) : Option Nat := if e.moveCopies then a else none

/-- The constructor, finalizer.h:123-125, through finally(), 168-171. -/
def create (s : State) (i : Nat) : State :=
  { s.set i (some ⟨some s.next, true⟩) with next := s.next + 1 }

/-- Move constructor, finalizer.h:127-133: a new object `i` from the object `j`. -/
def moveCtor (e : Env) (s : State) (i j : Nat) (other : Obj) : State :=
  let s := s.set i (some ⟨other.action, other.invoke⟩)
  s.set j (some ⟨movedFrom e other.action, false⟩)

/-- Move assignment, finalizer.h:135-143: `i = std::move(j)`. -/
def moveAssign (e : Env) (s : State) (i j : Nat) (other : Obj) : State :=
  if i = j then s
  else
    let s := s.set i (some ⟨other.action, other.invoke⟩)
    s.set j (some ⟨movedFrom e other.action, false⟩)

/-- Destructor, finalizer.h:151-154; noexcept, so that an exception ends the program. -/
def destroy (e : Env) (s : State) (i : Nat) (o : Obj) : Res State :=
  let s := s.set i none
  if o.invoke then
    match o.action with
    | none => .ub
    | some a => if e.throws a then .terminate else .ok { s with log := s.log ++ [a] }
  else .ok s

/-- One operation. Naming a variable that does not exist, or creating an object where there is one
already, is undefined. finalizer.h:105-155. -/
def step (e : Env) (s : State) : Op → Res State
  | .create i => match s.objs i with
    | none => .ok (create s i)
    | some _ => .ub
  | .moveCtor i j => match s.objs i, s.objs j with
    | none, some o => .ok (moveCtor e s i j o)
    | _, _ => .ub
  | .moveAssign i j => match s.objs i, s.objs j with
    | some _, some o => .ok (moveAssign e s i j o)
    | _, _ => .ub
  | .destroy i => match s.objs i with
    | some o => destroy e s i o
    | none => .ub

/-- No FinalAction (finalizer.h:105-155) exists at the beginning. -/
def init : State := ⟨fun _ => none, [], 0⟩

/-- A whole history. A program that uses finalizer.h:105-155. -/
def run (e : Env) (s : State) : List Op → Res State
  | [] => .ok s
  | op :: ops => (step e s op).bind fun s => run e s ops

end Gul14.Finalizer

namespace Gul14.Spec.Final
open Gul14.Finalizer (Op)

/-- What the documentation promises, without closures and flags: which variables exist, which
variable owns which action that is still to be executed, which actions have been executed. -/
structure Ledger where
  alive : List Nat
  owned : List (Nat × Nat)
  executed : List Nat
  created : Nat

def Ledger.empty : Ledger := ⟨[], [], [], 0⟩

/-- The actions owned by variable `i`. -/
def Ledger.of (l : Ledger) (i : Nat) : List Nat :=
  (l.owned.filter (fun p => p.1 = i)).map Prod.snd

/-- Execute what variable `i` owns. -/
def Ledger.execute (l : Ledger) (i : Nat) : Ledger :=
  { l with owned := l.owned.filter (fun p => p.1 ≠ i), executed := l.executed ++ l.of i }

/-- Hand over what `j` owns to `i`. -/
def Ledger.handOver (l : Ledger) (i j : Nat) : Ledger :=
  { l with owned := l.owned.map (fun p => if p.1 = j then (i, p.2) else p) }

/-- The program is well-formed at this point: it only uses variables that exist and only creates
variables that do not exist. -/
def Wf (l : Ledger) : Op → Prop
  | .create i => i ∉ l.alive
  | .moveCtor i j => i ∉ l.alive ∧ j ∈ l.alive
  | .moveAssign i j => i ∈ l.alive ∧ j ∈ l.alive
  | .destroy i => i ∈ l.alive

/-- The documented effect of the operations: an action belongs to the object it was given to, moves
with it, and is executed when its owner ceases to own it without handing it over. -/
def next (l : Ledger) : Op → Ledger
  | .create i => { l with alive := i :: l.alive, owned := (i, l.created) :: l.owned,
                          created := l.created + 1 }
  | .moveCtor i j => { l.handOver i j with alive := i :: l.alive }
  | .moveAssign i j => if i = j then l else (l.execute i).handOver i j
  | .destroy i => { l.execute i with alive := l.alive.filter (· ≠ i) }

def after (l : Ledger) : List Op → Ledger
  | [] => l
  | op :: ops => after (next l op) ops

/-- Every operation of the history is well-formed when it is executed. -/
def WfAll (l : Ledger) : List Op → Prop
  | [] => True
  | op :: ops => Wf l op ∧ WfAll (next l op) ops

/-- No move assignment has a target that owns an action (self-assignment is allowed). -/
def NoOverwrite (l : Ledger) : List Op → Prop
  | [] => True
  | op :: ops => (∀ i j, op = .moveAssign i j → i ≠ j → l.of i = []) ∧ NoOverwrite (next l op) ops

end Gul14.Spec.Final

namespace Gul14.Finalizer
open Gul14.Spec.Final

/-! ### at most once, for all histories -/

/-- Armed objects own distinct actions that have not been executed. -/
structure Inv (s : State) : Prop where
  armed : ∀ i o, s.objs i = some o → o.invoke = true →
    ∃ a, o.action = some a ∧ a < s.next ∧ a ∉ s.log
  distinct : ∀ i j o p a, s.objs i = some o → s.objs j = some p → o.invoke = true →
    p.invoke = true → o.action = some a → p.action = some a → i = j
  nodup : s.log.Nodup
  bound : ∀ a ∈ s.log, a < s.next

theorem inv_init : Inv init := by
  constructor <;> simp [init]

theorem inv_create {s : State} (h : Inv s) (i : Nat) : Inv (create s i) := by
  obtain ⟨h1, h2, h3, h4⟩ := h
  refine ⟨?_, ?_, h3, ?_⟩
  · intro k o hk ho
    simp only [create, State.set] at hk ⊢
    split at hk
    · cases hk
      exact ⟨s.next, rfl, by omega, fun hm => absurd (h4 _ hm) (by omega)⟩
    · obtain ⟨a, ha, hb, hc⟩ := h1 k o hk ho
      exact ⟨a, ha, by omega, hc⟩
  · intro k m o p a hk hm ho hp ha hb
    simp only [create, State.set] at hk hm
    split at hk <;> split at hm
    · omega
    · cases hk; cases ha
      obtain ⟨b, h5, h6, _⟩ := h1 m p hm hp
      rw [hb] at h5; cases h5; omega
    · cases hm; cases hb
      obtain ⟨b, h5, h6, _⟩ := h1 k o hk ho
      rw [ha] at h5; cases h5; omega
    · exact h2 k m o p a hk hm ho hp ha hb
  · intro a ha
    have := h4 a ha
    simp only [create]; omega

/-- Overwriting `i` with what `j` holds and disarming `j`. -/
theorem inv_transfer {s : State} (h : Inv s) (i j : Nat) (o : Obj) (hj : s.objs j = some o)
    (c : Option Nat) (hij : i ≠ j) :
    Inv ((s.set i (some ⟨o.action, o.invoke⟩)).set j (some ⟨c, false⟩)) := by
  obtain ⟨h1, h2, h3, h4⟩ := h
  refine ⟨?_, ?_, h3, h4⟩
  · intro k p hk hp
    simp only [State.set] at hk ⊢
    split at hk
    · cases hk; cases hp
    · split at hk
      · cases hk; exact h1 j o hj hp
      · exact h1 k p hk hp
  · intro k m p q a hk hm hp hq ha hb
    simp only [State.set] at hk hm
    split at hk
    · cases hk; cases hp
    · split at hm
      · cases hm; cases hq
      · split at hk <;> split at hm
        · omega
        · cases hk
          have := h2 j m o q a hj hm hp hq ha hb
          omega
        · cases hm
          have := h2 k j p o a hk hj hp hq ha hb
          omega
        · exact h2 k m p q a hk hm hp hq ha hb

theorem inv_destroy {e : Env} {s t : State} (h : Inv s) (i : Nat) (o : Obj)
    (hi : s.objs i = some o) (hs : destroy e s i o = .ok t) : Inv t := by
  obtain ⟨h1, h2, h3, h4⟩ := h
  simp only [destroy] at hs
  have hsub : ∀ k p, (s.set i none).objs k = some p → k ≠ i ∧ s.objs k = some p := by
    intro k p hk
    simp only [State.set] at hk
    split at hk
    · cases hk
    · exact ⟨by assumption, hk⟩
  split at hs
  · rename_i hinv
    obtain ⟨a, ha, hb, hc⟩ := h1 i o hi hinv
    rw [ha] at hs
    simp only at hs
    split at hs
    · cases hs
    · cases hs
      refine ⟨?_, ?_, ?_, ?_⟩
      · intro k p hk hp
        obtain ⟨hne, hk⟩ := hsub k p hk
        obtain ⟨b, h5, h6, h7⟩ := h1 k p hk hp
        refine ⟨b, h5, h6, ?_⟩
        simp only [State.set, List.mem_append, List.mem_singleton, not_or]
        refine ⟨h7, fun hab => hne (h2 k i p o b hk hi hp hinv h5 (by rw [ha, hab]))⟩
      · intro k m p q b hk hm
        exact h2 k m p q b (hsub k p hk).2 (hsub m q hm).2
      · simp only [State.set]
        rw [List.nodup_append]
        refine ⟨h3, by simp, ?_⟩
        intro x hx y hy
        simp only [List.mem_singleton] at hy
        intro hxy; subst hxy; subst hy; exact hc hx
      · intro b hm
        simp only [State.set, List.mem_append, List.mem_singleton] at hm
        rcases hm with hm | rfl
        · exact h4 b hm
        · exact hb
  · cases hs
    refine ⟨?_, ?_, h3, h4⟩
    · intro k p hk hp
      exact h1 k p (hsub k p hk).2 hp
    · intro k m p q b hk hm
      exact h2 k m p q b (hsub k p hk).2 (hsub m q hm).2

theorem inv_step {e : Env} {s t : State} (h : Inv s) (op : Op) (hs : step e s op = .ok t) :
    Inv t := by
  cases op with
  | create i =>
      simp only [step] at hs
      split at hs
      · cases hs; exact inv_create h i
      · cases hs
  | moveCtor i j =>
      simp only [step] at hs
      split at hs
      · rename_i o h5 h6
        cases hs
        exact inv_transfer h i j o h6 _ (by rintro rfl; rw [h5] at h6; cases h6)
      · cases hs
  | moveAssign i j =>
      simp only [step] at hs
      split at hs
      · rename_i o h5 h6
        cases hs
        unfold moveAssign
        split
        · exact h
        · exact inv_transfer h i j o h6 _ (by assumption)
      · cases hs
  | destroy i =>
      simp only [step] at hs
      split at hs
      · exact inv_destroy h i _ (by assumption) hs
      · cases hs

theorem inv_run {e : Env} (ops : List Op) : ∀ {s t : State}, Inv s → run e s ops = .ok t → Inv t := by
  induction ops with
  | nil => intro s t h hr; cases hr; exact h
  | cons op ops ih =>
      intro s t h hr
      simp only [run] at hr
      match hst : step e s op with
      | .ok u => rw [hst] at hr; exact ih (inv_step h op hst) hr
      | .throw _ => rw [hst] at hr; cases hr
      | .terminate => rw [hst] at hr; cases hr
      | .ub => rw [hst] at hr; cases hr
      | .diverge => rw [hst] at hr; cases hr

/-- In every history, whatever is moved where, no action is executed twice, and only actions given
to finally() are executed. -/
theorem c63_at_most_once (e : Env) (ops : List Op) (t : State) (h : run e init ops = .ok t) :
    t.log.Nodup ∧ ∀ a ∈ t.log, a < t.next :=
  let hi := inv_run ops inv_init h
  ⟨hi.nodup, hi.bound⟩

/-! ### refinement -/

/-- The program state agrees with the ledger. -/
structure Rel (s : State) (l : Ledger) : Prop where
  alive : ∀ i, i ∈ l.alive ↔ (s.objs i).isSome = true
  owns : ∀ i a, (i, a) ∈ l.owned ↔ ∃ o, s.objs i = some o ∧ o.invoke = true ∧ o.action = some a
  log : s.log = l.executed
  next : s.next = l.created
  inv : Inv s
  nodup : l.owned.Nodup

theorem rel_init : Rel init Ledger.empty := by
  constructor
  · simp [init, Ledger.empty]
  · simp [init, Ledger.empty]
  · rfl
  · rfl
  · exact inv_init
  · simp [Ledger.empty]

/-- A duplicate-free list whose only possible element is `a` and which contains it. -/
theorem eq_singleton {α : Type} [DecidableEq α] {l : List α} {a : α} (hn : l.Nodup) (ha : a ∈ l)
    (h : ∀ b ∈ l, b = a) : l = [a] := by
  match l, hn, ha, h with
  | [b], _, _, h => rw [h b (by simp)]
  | b :: c :: r, hn, _, h =>
      have h1 := h b (by simp)
      have h2 := h c (by simp)
      subst h1; subst h2
      simp at hn

theorem of_eq {s : State} {l : Ledger} (h : Rel s l) (i : Nat) :
    l.of i = match s.objs i with
      | some o => if o.invoke then [o.action.getD 0] else []
      | none => [] := by
  have hmem : ∀ a, a ∈ l.of i ↔ (i, a) ∈ l.owned := by
    intro a
    simp only [Ledger.of, List.mem_map, List.mem_filter, decide_eq_true_eq]
    constructor
    · rintro ⟨⟨x, y⟩, ⟨h1, h2⟩, h3⟩
      simp only at h2 h3; subst h2; subst h3; exact h1
    · intro h1; exact ⟨(i, a), ⟨h1, rfl⟩, rfl⟩
  have hempty : (∀ a, (i, a) ∉ l.owned) → l.of i = [] := by
    intro hn
    rw [List.eq_nil_iff_forall_not_mem]
    intro a ha
    exact hn a ((hmem a).1 ha)
  split
  · rename_i o ho
    split
    · rename_i hinv
      obtain ⟨a, ha, _, _⟩ := h.inv.armed i o ho hinv
      have hall : ∀ b, (i, b) ∈ l.owned → b = a := by
        intro b hb
        obtain ⟨p, hp, _, hq⟩ := (h.owns i b).1 hb
        rw [ho] at hp; cases hp; rw [ha] at hq; cases hq; rfl
      have hin : (i, a) ∈ l.owned := (h.owns i a).2 ⟨o, ho, hinv, ha⟩
      have hf : l.owned.filter (fun p => p.1 = i) = [(i, a)] := by
        refine eq_singleton (h.nodup.filter _) ?_ ?_
        · simp [hin]
        · rintro ⟨x, y⟩ hxy
          simp only [List.mem_filter, decide_eq_true_eq] at hxy
          obtain ⟨h1, h2⟩ := hxy
          subst h2
          rw [hall y h1]
      simp [Ledger.of, hf, ha]
    · rename_i hinv
      apply hempty
      intro a ha
      obtain ⟨p, hp, hq, _⟩ := (h.owns i a).1 ha
      rw [ho] at hp; cases hp; exact hinv hq
  · rename_i ho
    apply hempty
    intro a ha
    obtain ⟨p, hp, _⟩ := (h.owns i a).1 ha
    rw [ho] at hp; cases hp

theorem execute_nothing {l : Ledger} {i : Nat} (h : l.of i = []) : l.execute i = l := by
  have hf : l.owned.filter (fun p => p.1 = i) = [] := by
    simpa [Ledger.of] using h
  have : l.owned.filter (fun p => p.1 ≠ i) = l.owned := by
    rw [List.filter_eq_self]
    intro p hp
    have := List.filter_eq_nil_iff.1 hf p hp
    simpa using this
  unfold Ledger.execute
  rw [h, this, List.append_nil]

theorem rel_handOver {s : State} {l : Ledger} (h : Rel s l) {i j : Nat} {o : Obj}
    (hj : s.objs j = some o) (hij : i ≠ j) (hi : l.of i = []) (c : Option Nat) (al : List Nat)
    (hal : ∀ k, k ∈ al ↔ k = i ∨ k ∈ l.alive) :
    Rel ((s.set i (some ⟨o.action, o.invoke⟩)).set j (some ⟨c, false⟩))
      { l.handOver i j with alive := al } := by
  have hno : ∀ a, (i, a) ∉ l.owned := by
    intro a ha
    have hm : a ∈ l.of i := by
      simp only [Ledger.of, List.mem_map, List.mem_filter, decide_eq_true_eq]
      exact ⟨(i, a), ⟨ha, rfl⟩, rfl⟩
    rw [hi] at hm; cases hm
  refine ⟨?_, ?_, h.log, h.next, inv_transfer h.inv i j o hj c hij, ?_⟩
  · intro k
    rw [hal, h.alive k]
    simp only [State.set]
    by_cases hk : k = j
    · subst hk; simp [hj]
    · by_cases hk2 : k = i
      · subst hk2; simp [hk]
      · simp [hk, hk2]
  · intro k a
    simp only [Ledger.handOver, List.mem_map, State.set]
    constructor
    · rintro ⟨⟨x, y⟩, hxy, heq⟩
      simp only at heq
      split at heq
      · cases heq
        subst_vars
        obtain ⟨p, hp, hq, hr⟩ := (h.owns _ a).1 hxy
        rw [hj] at hp; cases hp
        simp [hij, hq, hr]
      · rename_i hxj
        cases heq
        have hki : k ≠ i := by rintro rfl; exact hno a hxy
        simp only [hxj, hki, if_false]
        exact (h.owns k a).1 hxy
    · rintro ⟨p, hp, hq, hr⟩
      split at hp
      · cases hp; cases hq
      · split at hp
        · cases hp
          subst_vars
          exact ⟨(j, a), (h.owns j a).2 ⟨o, hj, hq, hr⟩, by simp⟩
        · rename_i hkj _
          exact ⟨(k, a), (h.owns k a).2 ⟨p, hp, hq, hr⟩, by simp [hkj]⟩
  · show (l.owned.map _).Nodup
    unfold List.Nodup
    rw [List.pairwise_map]
    refine List.Pairwise.imp_of_mem ?_ h.nodup
    rintro ⟨x, y⟩ ⟨u, v⟩ hx hu hne heq
    simp only at heq
    split at heq <;> split at heq
    · cases heq; subst_vars; exact hne rfl
    · cases heq; exact hno _ hu
    · cases heq; exact hno _ hx
    · exact hne heq

theorem rel_step {e : Env} (hthr : ∀ a, e.throws a = false) {s : State} {l : Ledger} (h : Rel s l)
    (op : Op) (hw : Wf l op) (hno : ∀ i j, op = .moveAssign i j → i ≠ j → l.of i = []) :
    ∃ t, step e s op = .ok t ∧ Rel t (next l op) := by
  cases op with
  | create i =>
      have hn : s.objs i = none := by
        have := (not_congr (h.alive i)).1 hw
        simpa using this
      refine ⟨create s i, by simp [step, hn], ?_⟩
      have hno : ∀ a, (i, a) ∉ l.owned := by
        intro a ha
        obtain ⟨p, hp, _⟩ := (h.owns i a).1 ha
        rw [hn] at hp; cases hp
      refine ⟨?_, ?_, h.log, by simp [create, next, h.next], inv_create h.inv i, ?_⟩
      · intro k
        simp only [next, create, State.set, List.mem_cons, h.alive k]
        by_cases hk : k = i <;> simp [hk]
      · intro k a
        simp only [next, create, State.set, List.mem_cons]
        by_cases hk : k = i
        · subst hk
          simp only [hno, or_false, if_true, h.next]
          constructor
          · intro heq; cases heq; exact ⟨_, rfl, rfl, rfl⟩
          · rintro ⟨o, ho, _, ha⟩; cases ho; cases ha; rfl
        · simp only [hk, if_false]
          rw [← h.owns k a]
          constructor
          · rintro (heq | h1)
            · cases heq; exact absurd rfl hk
            · exact h1
          · exact Or.inr
      · show ((i, l.created) :: l.owned).Nodup
        rw [List.nodup_cons]
        exact ⟨hno _, h.nodup⟩
  | moveCtor i j =>
      obtain ⟨hi, hj⟩ := hw
      have hn : s.objs i = none := by simpa using (not_congr (h.alive i)).1 hi
      obtain ⟨o, ho⟩ := Option.isSome_iff_exists.1 ((h.alive j).1 hj)
      refine ⟨moveCtor e s i j o, by simp [step, hn, ho], ?_⟩
      refine rel_handOver h ho (by rintro rfl; rw [hn] at ho; cases ho) ?_ _ _ (by simp)
      rw [of_eq h i, hn]
  | moveAssign i j =>
      obtain ⟨hi, hj⟩ := hw
      obtain ⟨p, hp⟩ := Option.isSome_iff_exists.1 ((h.alive i).1 hi)
      obtain ⟨o, ho⟩ := Option.isSome_iff_exists.1 ((h.alive j).1 hj)
      refine ⟨moveAssign e s i j o, by simp [step, hp, ho], ?_⟩
      show Rel (moveAssign e s i j o) (if i = j then l else (l.execute i).handOver i j)
      unfold moveAssign
      split
      · exact h
      · rename_i hij
        have hof := hno i j rfl hij
        rw [execute_nothing hof]
        refine rel_handOver h ho hij hof _ l.alive ?_
        intro k
        constructor
        · exact Or.inr
        · rintro (rfl | hk)
          · exact hi
          · exact hk
  | destroy i =>
      obtain ⟨o, ho⟩ := Option.isSome_iff_exists.1 ((h.alive i).1 hw)
      have hof := of_eq h i
      rw [ho] at hof
      simp only at hof
      have hal : ∀ k, k ∈ l.alive.filter (· ≠ i) ↔ ((s.set i none).objs k).isSome = true := by
        intro k
        simp only [List.mem_filter, State.set, h.alive k]
        by_cases hk : k = i <;> simp [hk]
      have how : ∀ k a, (k, a) ∈ l.owned.filter (fun p => p.1 ≠ i) ↔
          ∃ o, (s.set i none).objs k = some o ∧ o.invoke = true ∧ o.action = some a := by
        intro k a
        simp only [List.mem_filter, State.set, h.owns k a]
        by_cases hk : k = i <;> simp [hk]
      by_cases hinv : o.invoke = true
      · obtain ⟨a, ha, _, _⟩ := h.inv.armed i o ho hinv
        have hd : destroy e s i o = .ok { s.set i none with log := s.log ++ [a] } := by
          simp [destroy, hinv, ha, hthr, State.set]
        refine ⟨_, by simp only [step, ho]; exact hd, ?_⟩
        refine ⟨hal, how, ?_, h.next, inv_destroy h.inv i o ho hd, h.nodup.filter _⟩
        simp only [next, Ledger.execute, hof, hinv, if_true, ha, Option.getD_some, h.log]
      · have hd : destroy e s i o = .ok (s.set i none) := by simp [destroy, hinv]
        refine ⟨_, by simp only [step, ho]; exact hd, ?_⟩
        refine ⟨hal, how, ?_, h.next, inv_destroy h.inv i o ho hd, h.nodup.filter _⟩
        simp [next, Ledger.execute, hof, hinv, State.set, h.log]

theorem rel_run {e : Env} (hthr : ∀ a, e.throws a = false) (ops : List Op) :
    ∀ {s : State} {l : Ledger}, Rel s l → WfAll l ops → NoOverwrite l ops →
      ∃ t, run e s ops = .ok t ∧ Rel t (after l ops) := by
  induction ops with
  | nil => intro s l h _ _; exact ⟨s, rfl, h⟩
  | cons op ops ih =>
      intro s l h hw hno
      obtain ⟨t, h1, h2⟩ := rel_step hthr h op hw.1 hno.1
      obtain ⟨u, h3, h4⟩ := ih h2 hw.2 hno.2
      exact ⟨u, by simp [run, h1, h3], h4⟩

/-- In every well-formed history without a move assignment onto an object that still owns an
action, the actions are executed exactly as documented: each action when the object that owns it
is destroyed, in that order, and nothing else.  (Missing from the full claim: move assignment onto
an object that owns an action, see `c63_move_assignment_violated`; actions that throw, which end
the program, see `c63_throwing_action`.) -/
theorem c63_as_documented_partial (e : Env) (ops : List Op) (hthr : ∀ a, e.throws a = false)
    (hw : WfAll Ledger.empty ops) (hno : NoOverwrite Ledger.empty ops) :
    ∃ t, run e init ops = .ok t ∧ t.log = (after Ledger.empty ops).executed := by
  obtain ⟨t, h1, h2⟩ := rel_run hthr ops rel_init hw hno
  exact ⟨t, h1, h2.log⟩

/-! The ledger itself: every action is executed or owned, once. -/

theorem ledger_step (l : Ledger) (op : Op)
    (h : ∀ a, (l.owned.map Prod.snd).count a + l.executed.count a = if a < l.created then 1 else 0)
    (a : Nat) :
    ((next l op).owned.map Prod.snd).count a + (next l op).executed.count a =
      if a < (next l op).created then 1 else 0 := by
  have hpart : ∀ i, ((l.owned.filter (fun p => p.1 ≠ i)).map Prod.snd).count a + (l.of i).count a
      = (l.owned.map Prod.snd).count a := by
    intro i
    unfold Ledger.of
    induction l.owned with
    | nil => rfl
    | cons p r ih =>
        by_cases hp : p.1 = i <;> simp [List.filter_cons, hp, List.count_cons] at ih ⊢ <;> omega
  have hhand : ∀ (l : Ledger) i j, ((l.handOver i j).owned.map Prod.snd) = l.owned.map Prod.snd := by
    intro l i j
    simp only [Ledger.handOver, List.map_map]
    apply List.map_congr_left
    intro p _
    simp only [Function.comp]
    split <;> rfl
  have hex : ∀ i, ((l.execute i).owned.map Prod.snd).count a + (l.execute i).executed.count a =
      if a < l.created then 1 else 0 := by
    intro i
    have h1 := hpart i
    have h2 := h a
    simp only [Ledger.execute, List.count_append]
    omega
  cases op with
  | create i =>
      have h2 := h a
      simp only [next, List.map_cons, List.count_cons]
      by_cases hc : l.created = a
      · subst hc; simp at h2 ⊢; omega
      · have : (l.created == a) = false := by simpa using hc
        simp only [this]
        by_cases ha : a < l.created
        · simp [ha, show a < l.created + 1 by omega] at h2 ⊢; omega
        · simp [ha, show ¬ a < l.created + 1 by omega] at h2 ⊢; omega
  | moveCtor i j => simp only [next]; rw [hhand]; exact h a
  | moveAssign i j =>
      simp only [next]
      split
      · exact h a
      · rw [hhand]; exact hex i
  | destroy i => exact hex i

theorem ledger_after (ops : List Op) : ∀ (l : Ledger),
    (∀ a, (l.owned.map Prod.snd).count a + l.executed.count a = if a < l.created then 1 else 0) →
    ∀ a, ((after l ops).owned.map Prod.snd).count a + (after l ops).executed.count a =
      if a < (after l ops).created then 1 else 0 := by
  induction ops with
  | nil => intro l h; exact h
  | cons op ops ih => intro l h; exact ih _ (ledger_step l op h)

/-- When all objects are gone at the end of such a history, every action given to finally() has been
executed exactly once, and no other. -/
theorem c63_exactly_once_partial (e : Env) (ops : List Op) (hthr : ∀ a, e.throws a = false)
    (hw : WfAll Ledger.empty ops) (hno : NoOverwrite Ledger.empty ops) :
    ∃ t, run e init ops = .ok t ∧
      ((∀ i, t.objs i = none) → ∀ a, t.log.count a = if a < t.next then 1 else 0) := by
  obtain ⟨t, h1, h2⟩ := rel_run hthr ops rel_init hw hno
  refine ⟨t, h1, ?_⟩
  intro hnone a
  have h3 := ledger_after ops Ledger.empty (by simp [Ledger.empty]) a
  have h4 : (after Ledger.empty ops).owned = [] := by
    rw [List.eq_nil_iff_forall_not_mem]
    rintro ⟨i, b⟩ hb
    obtain ⟨o, ho, _⟩ := (h2.owns i b).1 hb
    rw [hnone] at ho; cases ho
  rw [h4] at h3
  rw [h2.log, h2.next]
  simpa using h3

/-- Before that, an action that has not been executed is owned by exactly one object that will
execute it, in every such history. -/
theorem c63_never_lost_partial (e : Env) (ops : List Op) (hthr : ∀ a, e.throws a = false)
    (hw : WfAll Ledger.empty ops) (hno : NoOverwrite Ledger.empty ops) :
    ∃ t, run e init ops = .ok t ∧ ∀ a, a < t.next → a ∉ t.log →
      ∃ i, t.objs i = some ⟨some a, true⟩ ∧ ∀ k, t.objs k = some ⟨some a, true⟩ → k = i := by
  obtain ⟨t, h1, h2⟩ := rel_run hthr ops rel_init hw hno
  refine ⟨t, h1, ?_⟩
  intro a ha hlog
  have h3 := ledger_after ops Ledger.empty (by simp [Ledger.empty]) a
  rw [← h2.log, ← h2.next, List.count_eq_zero_of_not_mem hlog, if_pos ha] at h3
  have h4 : a ∈ (after Ledger.empty ops).owned.map Prod.snd := by
    rw [← List.count_pos_iff]; omega
  obtain ⟨⟨i, b⟩, h5, h6⟩ := List.mem_map.1 h4
  simp only at h6; subst h6
  obtain ⟨o, h7, h8, h9⟩ := (h2.owns i b).1 h5
  obtain ⟨oa, oi⟩ := o
  simp only at h8 h9; subst h8; subst h9
  exact ⟨i, h7, fun k hk => h2.inv.distinct k i _ _ b hk h7 rfl rfl rfl rfl⟩

/-- A history that passes an action through four objects, executes another one in between, and
reuses a variable. -/
example : ∃ ops, WfAll Ledger.empty ops ∧ NoOverwrite Ledger.empty ops ∧
    (after Ledger.empty ops).executed = [1, 0] ∧ (after Ledger.empty ops).alive = [] :=
  ⟨[.create 0, .moveCtor 1 0, .create 2, .moveAssign 0 1, .destroy 2, .moveAssign 0 0,
    .moveCtor 2 0, .destroy 0, .destroy 1, .destroy 2], by
      refine ⟨by simp [WfAll, Wf, next, Ledger.empty, Ledger.handOver, Ledger.execute], ?_, by decide, by decide⟩
      refine ⟨?_, ?_, ?_, ?_, ?_, ?_, ?_, ?_, ?_, ?_, trivial⟩ <;>
      · rintro i j ⟨⟩ <;> decide⟩

/-- An action that throws ends the program (the destructor is noexcept): if the object is armed
with a throwing action, destroying it terminates. -/
theorem c63_throwing_action (e : Env) (ops : List Op) (t : State) (h : run e init ops = .ok t)
    (i : Nat) (o : Obj) (hi : t.objs i = some o) (harm : o.invoke = true)
    (hthr : ∀ a, o.action = some a → e.throws a = true) :
    step e t (.destroy i) = .terminate := by
  obtain ⟨a, ha, _, _⟩ := (inv_run ops inv_init h).armed i o hi harm
  simp [step, hi, destroy, harm, ha, hthr a ha]

example : ∃ (e : Env) (t : State) (o : Obj), run e init [.create 3] = .ok t ∧ t.objs 3 = some o ∧
    o.invoke = true ∧ ∀ a, o.action = some a → e.throws a = true :=
  ⟨⟨true, fun _ => true⟩, create init 3, ⟨some 0, true⟩, rfl, rfl, rfl, fun _ _ => rfl⟩

/-- Move assignment onto an object that owns an action drops that action: here two actions are
created, all objects are destroyed, and action 0 is never executed. -/
theorem c63_move_assignment_violated :
    ∃ (e : Env) (ops : List Op) (t : State), (∀ a, e.throws a = false) ∧ WfAll Ledger.empty ops ∧
      run e init ops = .ok t ∧ (∀ i, t.objs i = none) ∧ 0 < t.next ∧ 0 ∉ t.log ∧
      (after Ledger.empty ops).executed = [0, 1] := by
  refine ⟨⟨false, fun _ => false⟩,
    [.create 0, .create 1, .moveAssign 0 1, .destroy 1, .destroy 0], ?_⟩
  refine ⟨_, fun _ => rfl, by simp [WfAll, Wf, next, Ledger.empty, Ledger.handOver, Ledger.execute],
    rfl, ?_, by decide, by decide, by decide⟩
  intro i
  show (State.set _ 0 none).objs i = none
  simp only [State.set]
  split
  · rfl
  · split
    · rfl
    · simp [create, moveAssign, State.set, *, init]

end Gul14.Finalizer
