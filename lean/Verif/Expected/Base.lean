import Verif.Expected.Spec

/-! # Lifetimes in expected: invariant and tactics -/
namespace Gul14.Exp
open Spec Spec.Expd

variable {T E : Type}

/-- What is seen of one object. -/
def shown (o : Obj T E) : Option (Except E T) :=
  match o.has, o.cell with
  | true, .val t => some (.ok t)
  | false, .err e => some (.error e)
  | _, _ => none

def abs (s : Store T E) : Results T E := fun i => (s i).bind shown

/-- Every object holds exactly the alternative that its flag says. -/
def Inv (s : Store T E) : Prop :=
  ∀ i o, s i = some o → (∃ t, o = ⟨true, .val t⟩) ∨ ∃ e, o = ⟨false, .err e⟩

theorem inv_cases {s : Store T E} (h : Inv s) {i : Nat} (hi : abs s i ≠ none) :
    (∃ t, s i = some ⟨true, .val t⟩ ∧ abs s i = some (.ok t)) ∨
    ∃ e, s i = some ⟨false, .err e⟩ ∧ abs s i = some (.error e) := by
  unfold abs at *
  cases hs : s i with
  | none => simp [hs] at hi
  | some o =>
    rcases h i o hs with ⟨t, rfl⟩ | ⟨e, rfl⟩
    · exact .inl ⟨t, rfl, rfl⟩
    · exact .inr ⟨e, rfl, rfl⟩

theorem abs_none {s : Store T E} (hs : Inv s) {i : Nat} (h : abs s i = none) : s i = none := by
  unfold abs at h
  cases hi : s i with
  | none => rfl
  | some o =>
    rw [hi] at h
    rcases hs i o hi with ⟨t, rfl⟩ | ⟨e, rfl⟩ <;> simp [shown] at h

theorem abs_set (s : Store T E) (i : Nat) (o : Option (Obj T E)) :
    abs (s.set i o) = (abs s).set i (o.bind shown) := by
  funext k
  unfold abs Store.set Results.set
  split <;> rfl

theorem set_self (s : Store T E) (i : Nat) (o : Option (Obj T E)) : s.set i o i = o := by
  simp [Store.set]

theorem set_other (s : Store T E) {i k : Nat} (o : Option (Obj T E)) (h : k ≠ i) :
    s.set i o k = s k := by simp [Store.set, h]

theorem set_set (s : Store T E) (i : Nat) (o o' : Option (Obj T E)) :
    (s.set i o).set i o' = s.set i o' := by
  funext k; unfold Store.set; split <;> rfl

theorem elemIf_apply {V σ : Type} (b : Bool) (g : σ → σ) (h : V → σ → σ) (f : Fail V) (s : σ)
    (n : Nat) : LM.elemIf b g h f s n =
      if b = true then .ok () (g s) n
      else if f.at? = some n then .throw (h f.left s) (n + 1) else .ok () (g s) (n + 1) := by
  cases b <;> simp [LM.elemIf, LM.elem]

theorem elemIf_true {V σ : Type} (g : σ → σ) (h : V → σ → σ) (f : Fail V) (s : σ)
    (n : Nat) : LM.elemIf true g h f s n = .ok () (g s) n := rfl

/-- Outcome of a call without an exception. -/
def MeetsOk (mvT : T → T) (mvE : E → E) (a : Results T E) (op : Op T E) :
    Out (Store T E) Unit → Prop
  | .ok _ s' _ => Inv s' ∧ abs s' = effect mvT mvE a op
  | _ => False

/-- Outcome of a call in which element operations may throw. -/
def Meets (tr : Tr) (mvT : T → T) (mvE : E → E) (f : Fail (T × E)) (a : Results T E) (op : Op T E) :
    Out (Store T E) Unit → Prop
  | .ok _ s' _ => Inv s' ∧ abs s' = effect mvT mvE a op
  | .throw s' _ => f.at? ≠ none ∧ Inv s' ∧ KeepsAlternatives a (abs s') op
  | .terminate => f.at? ≠ none ∧ EndsProgram tr a op
  | .ub => False

attribute [scoped simp] set_self set_set abs_set shown LM.onThrow LM.noexcept Meets MeetsOk effect
  elemIf_apply EndsProgram kind

scoped macro "exp_simp" "[" ts:Lean.Parser.Tactic.simpLemma,* "]" : tactic =>
  `(tactic| simp [exec, ctorVal, ctorErr, ctorCopy, ctorMove, dtor, assignCopy, assignMove,
      assignVal, assignErr, assignErrMove, emplace, emplaceList, swap, swapBody, swapOne, swapErrs,
      swapVals, swapHas, assignCommonMove, assignCommonCopy, construct, constructMove,
      constructError, constructErrorMove, born, tmpVal, takeErr, takeVal, errAssignMove, errAssign,
      valAssignMove, valAssign, newErrMove, newErr, newValMove, newVal, fresh, destroyErr,
      destroyVal, setHas, has, err, val, setCell, put, get, $ts,*])

theorem inv_e {s : Store T E} (h : Inv s) (i : Nat) (e : E) :
    Inv (s.set i (some ⟨false, .err e⟩)) := by
  intro k o hk
  unfold Store.set at hk
  split at hk
  · exact .inr ⟨e, (Option.some.inj hk).symm⟩
  · exact h k o hk

theorem inv_v {s : Store T E} (h : Inv s) (i : Nat) (t : T) :
    Inv (s.set i (some ⟨true, .val t⟩)) := by
  intro k o hk
  unfold Store.set at hk
  split at hk
  · exact .inl ⟨t, (Option.some.inj hk).symm⟩
  · exact h k o hk

theorem inv_n {s : Store T E} (h : Inv s) (i : Nat) : Inv (s.set i none) := by
  intro k o hk
  unfold Store.set at hk
  split at hk
  · cases hk
  · exact h k o hk

theorem set_swap (s : Store T E) {i j : Nat} (h : i ≠ j) (x y z : Option (Obj T E)) :
    ((s.set i x).set j y).set i z = (s.set j y).set i z := by
  funext k; unfold Store.set; split <;> rfl

/-- Closes goals about explicit updates at two places. -/
scoped macro "two" i:ident j:ident hs:ident : tactic =>
  `(tactic| (
    first
    | (intro k o hk
       have hk0 := $hs k o
       by_cases h1 : k = $i <;> by_cases h2 : k = $j <;> simp_all [Store.set] <;>
         (first | done | (subst hk; simp)))
    | (funext k
       by_cases h1 : k = $i <;> by_cases h2 : k = $j <;> simp_all [Results.set, movedFrom])
    | (intro k
       by_cases h1 : k = $i <;> by_cases h2 : k = $j <;>
         simp_all [Results.set, kind, touched])))

scoped macro "fin" i:ident j:ident hs:ident : tactic =>
  `(tactic| (first | done | two $i $j $hs | (refine And.intro ?_ ?_ <;> two $i $j $hs)))

end Gul14.Exp
