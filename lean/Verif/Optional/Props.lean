import Verif.Optional.Spec

/-! # Properties of optional (C34) -/
namespace Gul14.Opt
open Spec

variable {V : Type}

/-- What is seen of one optional. -/
def shown (o : Opt V) : Option V :=
  if o.init then (match o.cell with | .live v => some v | .raw => none) else none

/-- What is seen of the store. -/
def abs (s : Store V) : Maybes V := fun i => (s i).map shown

/-- Exactly the engaged optionals hold a live object. -/
def Inv (s : Store V) : Prop := ∀ i o, s i = some o → (o.init = true ↔ ∃ v, o.cell = .live v)

theorem inv_cases {s : Store V} (h : Inv s) {i : Nat} (hi : abs s i ≠ none) :
    (s i = some ⟨false, .raw⟩ ∧ abs s i = some none) ∨
    ∃ v, s i = some ⟨true, .live v⟩ ∧ abs s i = some (some v) := by
  unfold abs at *
  cases hs : s i with
  | none => simp [hs] at hi
  | some o =>
    obtain ⟨b, c⟩ := o
    have := h i _ hs
    cases b <;> cases c <;> simp_all [shown]

theorem abs_none {s : Store V} {i : Nat} (h : abs s i = none) : s i = none := by
  unfold abs at h; simpa using h

theorem abs_set (s : Store V) (i : Nat) (o : Option (Opt V)) :
    abs (s.set i o) = (abs s).set i (o.map shown) := by
  funext k
  unfold abs Store.set Maybes.set
  split <;> rfl

theorem inv_set {s : Store V} (h : Inv s) (i : Nat) {o : Option (Opt V)}
    (ho : ∀ x, o = some x → (x.init = true ↔ ∃ v, x.cell = .live v)) : Inv (s.set i o) := by
  intro k x hx
  unfold Store.set at hx
  split at hx
  · exact ho x hx
  · exact h k x hx

theorem set_self (s : Store V) (i : Nat) (o : Option (Opt V)) : s.set i o i = o := by
  simp [Store.set]

theorem set_other (s : Store V) {i k : Nat} (o : Option (Opt V)) (h : k ≠ i) :
    s.set i o k = s k := by simp [Store.set, h]

theorem set_set (s : Store V) (i : Nat) (o o' : Option (Opt V)) :
    (s.set i o).set i o' = s.set i o' := by
  funext k; unfold Store.set; split <;> rfl


/-- A call fulfils the specification: it ends normally with the specified effect or with an
exception of an element operation and one of the states allowed then, and exactly the engaged
optionals hold a live object afterwards. -/
def Meets (mv : V → V) (f : Fail V) (a : Maybes V) (op : Op V) : Out (Store V) Unit → Prop
  | .ok _ s' _ => Inv s' ∧ abs s' = effect mv a op
  | .throw s' _ => f.at? ≠ none ∧ Inv s' ∧ AfterThrow a (abs s') op
  | .terminate => False
  | .ub => False

theorem mset_self (a : Maybes V) (i : Nat) (x) : a.set i x i = x := by simp [Maybes.set]
theorem mset_other (a : Maybes V) {i k : Nat} (x) (h : k ≠ i) : a.set i x k = a k := by
  simp [Maybes.set, h]
theorem mset_set (a : Maybes V) (i : Nat) (x y) : (a.set i x).set i y = a.set i y := by
  funext k; unfold Maybes.set; split <;> rfl
theorem mset_id (a : Maybes V) (i : Nat) (x) (h : a i = x) : a.set i x = a := by
  funext k; unfold Maybes.set; split <;> simp_all
theorem mset_comm (a : Maybes V) {i j : Nat} (x y) (h : i ≠ j) :
    (a.set i x).set j y = (a.set j y).set i x := by
  funext k; unfold Maybes.set; split <;> split <;> simp_all

attribute [local simp] set_self set_set abs_set shown LM.elem LM.onThrow Meets effect AfterThrow
  mset_self mset_set

local macro "opt_simp" "[" ts:Lean.Parser.Tactic.simpLemma,* "]" : tactic =>
  `(tactic| simp [exec, ctorEmpty, ctorCopy, ctorMove, ctorValue, dtor, assignNull, assignCopy,
      assignMove, assignValue, emplace, swap, valSwap, initCopy, initMove, setInit, deref, clear,
      initialized, valMove, valCopy, newMove, newCopy, setCell, contained, put, get, born, $ts,*])

theorem inv_e {s : Store V} (h : Inv s) (i : Nat) : Inv (s.set i (some ⟨false, .raw⟩)) :=
  inv_set h i (by rintro x ⟨⟩; simp)
theorem inv_l {s : Store V} (h : Inv s) (i : Nat) (v : V) :
    Inv (s.set i (some ⟨true, .live v⟩)) :=
  inv_set h i (by rintro x ⟨⟩; simp)
theorem inv_n {s : Store V} (h : Inv s) (i : Nat) : Inv (s.set i none) :=
  inv_set h i (by rintro x ⟨⟩)

/-- Closes goals about explicit updates at two places. -/
local macro "two" i:ident j:ident hs:ident l:term:max u:term:max : tactic =>
  `(tactic| (
    first
    | exact ⟨_, rfl⟩
    | exact ⟨_, _, rfl⟩
    | exact ⟨$l, $l, rfl⟩
    | (intro k o hk
       have hk0 := $hs k o
       by_cases h1 : k = $i <;> by_cases h2 : k = $j <;> simp_all [Store.set] <;>
         (first | done | (subst hk; simp)))
    | (funext k
       by_cases h1 : k = $i <;> by_cases h2 : k = $j <;> simp_all [Maybes.set])
    | (refine ⟨$l, ?_⟩
       funext k
       by_cases h1 : k = $i <;> by_cases h2 : k = $j <;> simp_all [Maybes.set])
    | (refine ⟨$l, $u, ?_⟩
       funext k
       by_cases h1 : k = $i <;> by_cases h2 : k = $j <;> simp_all [Maybes.set])))

theorem step_meets (mv : V → V) (op : Op V) (f : Fail V) (s : Store V) (n : Nat) (hs : Inv s)
    (hl : Legal (abs s) op) : Meets mv f (abs s) op (exec mv op f s n) := by
  cases op with
  | ctorEmpty i =>
    opt_simp [inv_e hs]
  | ctorValue i v =>
    by_cases hf : f.at? = some n <;> opt_simp [hf, inv_l hs, hs]
  | dtor i =>
    rcases inv_cases hs hl with ⟨h1, h2⟩ | ⟨v, h1, h2⟩ <;> opt_simp [h1, inv_n hs]
  | assignNull i =>
    rcases inv_cases hs hl with ⟨h1, h2⟩ | ⟨v, h1, h2⟩ <;> opt_simp [h1, inv_e hs]
  | assignValue i v =>
    rcases inv_cases hs hl with ⟨h1, h2⟩ | ⟨v, h1, h2⟩ <;> by_cases hf : f.at? = some n <;>
      opt_simp [h1, h2, hf, inv_l hs, hs]
    exact ⟨_, rfl⟩
  | emplace i v =>
    rcases inv_cases hs hl with ⟨h1, h2⟩ | ⟨v, h1, h2⟩ <;> by_cases hf : f.at? = some n <;>
      opt_simp [h1, h2, hf, inv_l hs, inv_e hs]
  | ctorCopy i j =>
    have hij : j ≠ i := by rintro rfl; exact hl.2 hl.1
    have hi := abs_none hl.1
    rcases inv_cases hs hl.2 with ⟨h1, h2⟩ | ⟨v, h1, h2⟩ <;> by_cases hf : f.at? = some n <;>
      opt_simp [h1, h2, set_other, hij, hf, inv_e hs, inv_l hs, inv_n hs]
    exact mset_id _ _ _ hl.1
  | ctorMove i j =>
    have hij : j ≠ i := by rintro rfl; exact hl.2 hl.1
    have hij' : i ≠ j := fun h => hij h.symm
    have hi := abs_none hl.1
    have hi0 := hl.1.symm
    rcases inv_cases hs hl.2 with ⟨h1, h2⟩ | ⟨v, h1, h2⟩ <;> by_cases hf : f.at? = some n <;>
      opt_simp [h1, h2, set_other, hij, hij', hf, inv_e hs, inv_l hs, inv_n hs]
    all_goals (try refine And.intro ?_ ?_)
    all_goals two i j hs f.left v
  | assignCopy i j =>
    by_cases hij : j = i
    · subst hij
      rcases inv_cases hs hl.2 with ⟨h1, h2⟩ | ⟨v, h1, h2⟩ <;> by_cases hf : f.at? = some n <;>
        opt_simp [h1, h2, set_other, hf, inv_e hs, inv_l hs, inv_n hs, hs, mset_id]
      exact ⟨_, rfl⟩
    · have hij' : i ≠ j := fun h => hij h.symm
      rcases inv_cases hs hl.1 with ⟨h1, h2⟩ | ⟨v, h1, h2⟩ <;>
      rcases inv_cases hs hl.2 with ⟨h3, h4⟩ | ⟨u, h3, h4⟩ <;>
      by_cases hf : f.at? = some n <;>
        opt_simp [h1, h2, h3, h4, hij, hij', set_other, hf, inv_e hs, inv_l hs, inv_n hs, hs, mset_id]
      all_goals (try refine And.intro ?_ ?_)
      all_goals two i j hs f.left v
  | assignMove i j =>
    by_cases hij : j = i
    · subst hij
      rcases inv_cases hs hl.2 with ⟨h1, h2⟩ | ⟨v, h1, h2⟩ <;> by_cases hf : f.at? = some n <;>
        opt_simp [h1, h2, set_other, hf, inv_e hs, inv_l hs, inv_n hs, hs, mset_id]
      all_goals (try refine And.intro ?_ ?_)
      all_goals two j j hs f.left v
    · have hij' : i ≠ j := fun h => hij h.symm
      rcases inv_cases hs hl.1 with ⟨h1, h2⟩ | ⟨v, h1, h2⟩ <;>
      rcases inv_cases hs hl.2 with ⟨h3, h4⟩ | ⟨u, h3, h4⟩ <;>
      by_cases hf : f.at? = some n <;>
        opt_simp [h1, h2, h3, h4, hij, hij', set_other, hf, inv_e hs, inv_l hs, inv_n hs, hs, mset_id]
      all_goals (try refine And.intro ?_ ?_)
      all_goals two i j hs f.left v
  | swap i j =>
    by_cases hij : j = i
    · subst hij
      rcases inv_cases hs hl.2 with ⟨h1, h2⟩ | ⟨v, h1, h2⟩ <;> by_cases hf : f.at? = some n <;>
      by_cases hf1 : f.at? = some (n + 1) <;> by_cases hf2 : f.at? = some (n + 2) <;>
        opt_simp [h1, h2, set_other, hf, hf1, hf2, inv_e hs, inv_l hs, inv_n hs, hs, mset_id]
      all_goals (try refine And.intro ?_ ?_)
      all_goals two j j hs f.left v
    · have hij' : i ≠ j := fun h => hij h.symm
      rcases inv_cases hs hl.1 with ⟨h1, h2⟩ | ⟨v, h1, h2⟩ <;>
      rcases inv_cases hs hl.2 with ⟨h3, h4⟩ | ⟨u, h3, h4⟩ <;>
      by_cases hf : f.at? = some n <;>
      by_cases hf1 : f.at? = some (n + 1) <;> by_cases hf2 : f.at? = some (n + 2) <;>
        opt_simp [h1, h2, h3, h4, hij, hij', set_other, hf, hf1, hf2, inv_e hs, inv_l hs, inv_n hs, hs, mset_id]
      all_goals (try refine And.intro ?_ ?_)
      all_goals two i j hs f.left u

/-! ## C34: optionals hold at most one live object, exactly when they are engaged -/

/-- A history: every operation comes with the element operation that throws in it, if any. -/
abbrev History (V : Type) := List (Op V × Fail V)

/-- Runs a history; `none` after undefined behaviour or an abort. -/
def runAll (mv : V → V) : Store V → History V → Option (Store V)
  | s, [] => some s
  | s, (op, f) :: h =>
    match exec mv op f s 0 with
    | .ok _ s' _ => runAll mv s' h
    | .throw s' _ => runAll mv s' h
    | .terminate => none
    | .ub => none

/-- What the specification allows to be seen after a history. -/
inductive Reaches (mv : V → V) : Maybes V → History V → Maybes V → Prop where
  | nil (a) : Reaches mv a [] a
  | done (a op f h a') : Reaches mv (effect mv a op) h a' → Reaches mv a ((op, f) :: h) a'
  | thrown (a b op f h a') : f.at? ≠ none → AfterThrow a b op → Reaches mv b h a' →
      Reaches mv a ((op, f) :: h) a'

/-- The history uses only optionals that exist at the time, whatever the exceptions do. -/
def LegalHistory (mv : V → V) : Maybes V → History V → Prop
  | _, [] => True
  | a, (op, f) :: h => Legal a op ∧ LegalHistory mv (effect mv a op) h ∧
      ∀ b, f.at? ≠ none → AfterThrow a b op → LegalHistory mv b h

theorem run_refines (mv : V → V) (h : History V) :
    ∀ s : Store V, Inv s → LegalHistory mv (abs s) h →
      ∃ s', runAll mv s h = some s' ∧ Inv s' ∧ Reaches mv (abs s) h (abs s') := by
  induction h with
  | nil => intro s hs _; exact ⟨s, rfl, hs, .nil _⟩
  | cons x h ih =>
    obtain ⟨op, f⟩ := x
    intro s hs hl
    have hm := step_meets mv op f s 0 hs hl.1
    unfold runAll
    cases he : exec mv op f s 0 with
    | ok a s' n =>
      rw [he] at hm
      obtain ⟨h1, h2⟩ := hm
      obtain ⟨s'', h3, h4, h5⟩ := ih s' h1 (by rw [h2]; exact hl.2.1)
      refine ⟨s'', h3, h4, .done _ _ _ _ _ ?_⟩
      rw [← h2]; exact h5
    | throw s' n =>
      rw [he] at hm
      obtain ⟨h0, h1, h2⟩ := hm
      obtain ⟨s'', h3, h4, h5⟩ := ih s' h1 (hl.2.2 _ h0 h2)
      exact ⟨s'', h3, h4, .thrown _ _ _ _ _ _ h0 h2 h5⟩
    | terminate => rw [he] at hm; exact hm.elim
    | ub => rw [he] at hm; exact hm.elim

/-- Starting from no objects, every history of construction, copies, moves, assignments, emplace,
swap, reset and destruction of optionals, with any element operation throwing in any of the calls,
runs without undefined behaviour or abort (in particular no object is constructed over a live one
and none is destroyed or read that is not alive), what is seen afterwards is what the maybe-value
specification allows, and every optional holds a live object exactly if it is engaged. -/
theorem c34_history (mv : V → V) (h : History V)
    (hl : LegalHistory mv (fun _ => none) h) :
    ∃ s', runAll mv (fun _ => none) h = some s' ∧
      Reaches mv (fun _ => none) h (abs s') ∧
      ∀ i o, s' i = some o → (o.init = true ↔ ∃ v, o.cell = .live v) := by
  obtain ⟨s', h1, h2, h3⟩ := run_refines mv h (fun _ => none) (by intro i o h; cases h) hl
  exact ⟨s', h1, h3, h2⟩

/-- The same for one call in any reachable state; without an exception from an element operation
the call does not throw and has exactly the specified effect. -/
theorem c34_step (mv : V → V) (op : Op V) (left : V) (s : Store V) (hs : Inv s)
    (hl : Legal (abs s) op) :
    ∃ s' n, exec mv op ⟨none, left⟩ s 0 = .ok () s' n ∧ Inv s' ∧
      abs s' = effect mv (abs s) op := by
  have hm := step_meets mv op ⟨none, left⟩ s 0 hs hl
  cases he : exec mv op ⟨none, left⟩ s 0 with
  | ok a s' n => rw [he] at hm; exact ⟨s', n, rfl, hm⟩
  | throw s' n => rw [he] at hm; exact absurd rfl hm.1
  | terminate => rw [he] at hm; exact hm.elim
  | ub => rw [he] at hm; exact hm.elim

/-- Observers: an engaged optional yields its value by operator*, value() and value_or(); on an
empty one value() throws, value_or() yields the default and operator* aborts (assert). -/
theorem c34_observers (f : Fail V) (s : Store V) (n : Nat) (hs : Inv s) (i : Nat) :
    (∀ v d, abs s i = some (some v) →
      initialized i f s n = .ok true s n ∧ deref i f s n = .ok v s n ∧
      value i f s n = .ok v s n ∧ valueOr i d f s n = .ok v s n) ∧
    (∀ d, abs s i = some none →
      initialized i f s n = .ok false s n ∧ deref i f s n = .terminate ∧
      value i f s n = .throw s n ∧ valueOr i d f s n = .ok d s n) := by
  constructor
  · intro v d h
    rcases inv_cases hs (i := i) (by simp [h]) with ⟨h1, h2⟩ | ⟨v', h1, h2⟩
    · rw [h] at h2; cases h2
    · rw [h] at h2; cases h2
      simp [initialized, deref, value, valueOr, get, contained, h1]
  · intro d h
    rcases inv_cases hs (i := i) (by simp [h]) with ⟨h1, h2⟩ | ⟨v', h1, h2⟩
    · simp [initialized, deref, value, valueOr, get, contained, h1]
    · rw [h] at h2; cases h2

/-- A history in which a copy constructor throws while an engaged optional is re-emplaced and one
throws in the middle of a swap. -/
example : LegalHistory (fun _ => 0) (fun _ => none)
    [(.ctorValue 0 5, ⟨none, 9⟩), (.ctorCopy 1 0, ⟨none, 9⟩), (.emplace 0 7, ⟨some 0, 9⟩),
     (.swap 0 1, ⟨some 0, 9⟩), (.assignMove 1 1, ⟨none, 9⟩)] := by
  simp [LegalHistory, Legal, effect, AfterThrow, Maybes.set]
  rintro b x y rfl
  simp

example : (runAll (fun _ => 0) (fun _ => none)
    [(.ctorValue 0 5, ⟨none, 9⟩), (.ctorCopy 1 0, ⟨none, 9⟩), (.emplace 0 7, ⟨some 0, 9⟩),
     (.swap 0 1, ⟨some 0, 9⟩)]).map (fun s => (s 0, s 1)) =
    some (some ⟨false, .raw⟩, some ⟨true, .live 9⟩) := by decide +kernel

end Gul14.Opt
