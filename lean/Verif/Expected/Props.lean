import Verif.Expected.Lifetimes
import Verif.Expected.Throws

/-! # expected keeps a live alternative (C38) -/
namespace Gul14.Exp
open Spec Spec.Expd

variable {T E : Type}

/-- A history: every operation comes with the element operation that throws in it, if any. -/
abbrev History (T E : Type) := List (Op T E × Fail (T × E))

inductive Final (σ : Type) where
  | running (s : σ)
  | terminated
  | ub

/-- Runs a history; the program catches the exceptions. -/
def runAll (tr : Tr) (mvT : T → T) (mvE : E → E) : Store T E → History T E → Final (Store T E)
  | s, [] => .running s
  | s, (op, f) :: h =>
    match exec tr mvT mvE op f s 0 with
    | .ok _ s' _ => runAll tr mvT mvE s' h
    | .throw s' _ => runAll tr mvT mvE s' h
    | .terminate => .terminated
    | .ub => .ub

/-- The content that the specification allows after a history. -/
inductive Reaches (mvT : T → T) (mvE : E → E) : Results T E → History T E → Results T E → Prop where
  | nil (a) : Reaches mvT mvE a [] a
  | done (a op f h a') : Reaches mvT mvE (effect mvT mvE a op) h a' →
      Reaches mvT mvE a ((op, f) :: h) a'
  | thrown (a b op f h a') : f.at? ≠ none → KeepsAlternatives a b op → Reaches mvT mvE b h a' →
      Reaches mvT mvE a ((op, f) :: h) a'

/-- At some point of the history the program is ended by an exception of one of the calls that do
not let exceptions through. -/
inductive EndedBy (tr : Tr) (mvT : T → T) (mvE : E → E) : Results T E → History T E → Prop where
  | here (a op f h) : f.at? ≠ none → EndsProgram tr a op → EndedBy tr mvT mvE a ((op, f) :: h)
  | done (a op f h) : EndedBy tr mvT mvE (effect mvT mvE a op) h →
      EndedBy tr mvT mvE a ((op, f) :: h)
  | thrown (a b op f h) : f.at? ≠ none → KeepsAlternatives a b op → EndedBy tr mvT mvE b h →
      EndedBy tr mvT mvE a ((op, f) :: h)

/-- The history uses objects that exist at the time, operations that the types offer, and no
operation that constructs over a destroyed object with a throwing constructor. -/
def SafeHistory (tr : Tr) (mvT : T → T) (mvE : E → E) : Results T E → History T E → Prop
  | _, [] => True
  | a, (op, f) :: h => Legal a op ∧ Available tr op ∧ Safe tr a op ∧
      SafeHistory tr mvT mvE (effect mvT mvE a op) h ∧
      ∀ b, f.at? ≠ none → KeepsAlternatives a b op → SafeHistory tr mvT mvE b h

/-- The history uses objects that exist at the time. -/
def LegalHistory (mvT : T → T) (mvE : E → E) : Results T E → History T E → Prop
  | _, [] => True
  | a, (op, _) :: h => Legal a op ∧ LegalHistory mvT mvE (effect mvT mvE a op) h

/-- The content after a history without exceptions. -/
def effects (mvT : T → T) (mvE : E → E) : Results T E → History T E → Results T E
  | a, [] => a
  | a, (op, _) :: h => effects mvT mvE (effect mvT mvE a op) h

theorem run_ok (tr : Tr) (mvT : T → T) (mvE : E → E) (h : History T E)
    (hn : ∀ x ∈ h, x.2.at? = none) :
    ∀ s : Store T E, Inv s → LegalHistory mvT mvE (abs s) h →
      ∃ s', runAll tr mvT mvE s h = .running s' ∧ Inv s' ∧
        abs s' = effects mvT mvE (abs s) h := by
  induction h with
  | nil => intro s hs _; exact ⟨s, rfl, hs, rfl⟩
  | cons x h ih =>
    obtain ⟨op, a?, l⟩ := x
    have h0 : a? = none := hn (op, ⟨a?, l⟩) (by simp)
    subst h0
    intro s hs hl
    have hm := step_ok tr mvT mvE op l s 0 hs hl.1
    unfold runAll
    cases he : exec tr mvT mvE op ⟨none, l⟩ s 0 with
    | ok a s' n =>
      rw [he] at hm
      obtain ⟨h1, h2⟩ := hm
      obtain ⟨s'', h3, h4, h5⟩ := ih (fun x hx => hn x (by simp [hx])) s' h1
        (by rw [h2]; exact hl.2)
      refine ⟨s'', h3, h4, ?_⟩
      simp only [effects]
      rw [← h2]; exact h5
    | throw s' n => rw [he] at hm; exact hm.elim
    | terminate => rw [he] at hm; exact hm.elim
    | ub => rw [he] at hm; exact hm.elim

/-- If no element operation throws, every history of construction, copies, moves, assignments,
emplace, swap and destruction of expected objects, for every combination of noexcept operations of
the two types (so with every overload), runs without undefined behaviour, gives the objects the
specified content, and leaves every object with exactly the one live alternative that its flag
says.  (That nothing is lost if an element operation throws is only true in part, see below.) -/
theorem c38_no_exception_partial (tr : Tr) (mvT : T → T) (mvE : E → E) (h : History T E)
    (hn : ∀ x ∈ h, x.2.at? = none) (hl : LegalHistory mvT mvE (fun _ => none) h) :
    ∃ s', runAll tr mvT mvE (fun _ => none) h = .running s' ∧
      abs s' = effects mvT mvE (fun _ => none) h ∧
      ∀ i o, s' i = some o → (∃ t, o = ⟨true, .val t⟩) ∨ ∃ e, o = ⟨false, .err e⟩ := by
  obtain ⟨s', h1, h2, h3⟩ := run_ok tr mvT mvE h hn (fun _ => none) (by intro i o h; cases h) hl
  exact ⟨s', h1, h3, h2⟩

theorem run_safe (tr : Tr) (mvT : T → T) (mvE : E → E) (h : History T E) :
    ∀ s : Store T E, Inv s → SafeHistory tr mvT mvE (abs s) h →
      match runAll tr mvT mvE s h with
      | .running s' => Inv s' ∧ Reaches mvT mvE (abs s) h (abs s')
      | .terminated => EndedBy tr mvT mvE (abs s) h
      | .ub => False := by
  induction h with
  | nil => intro s hs _; exact ⟨hs, .nil _⟩
  | cons x h ih =>
    obtain ⟨op, f⟩ := x
    intro s hs hl
    have hm := step_meets tr mvT mvE op f s 0 hs hl.1 hl.2.1 hl.2.2.1
    unfold runAll
    cases he : exec tr mvT mvE op f s 0 with
    | ok a s' n =>
      rw [he] at hm
      obtain ⟨h1, h2⟩ := hm
      have h3 := ih s' h1 (by rw [h2]; exact hl.2.2.2.1)
      simp only
      cases hr : runAll tr mvT mvE s' h with
      | running s'' =>
        rw [hr] at h3
        refine ⟨h3.1, .done _ _ _ _ _ ?_⟩
        rw [← h2]; exact h3.2
      | terminated =>
        rw [hr, h2] at h3
        exact .done _ _ _ _ h3
      | ub => rw [hr] at h3; exact h3.elim
    | throw s' n =>
      rw [he] at hm
      obtain ⟨h0, h1, h2⟩ := hm
      have h3 := ih s' h1 (hl.2.2.2.2 _ h0 h2)
      simp only
      cases hr : runAll tr mvT mvE s' h with
      | running s'' => rw [hr] at h3; exact ⟨h3.1, .thrown _ _ _ _ _ _ h0 h2 h3.2⟩
      | terminated => rw [hr] at h3; exact .thrown _ _ _ _ _ h0 h2 h3
      | ub => rw [hr] at h3; exact h3.elim
    | terminate => rw [he] at hm; exact .here _ _ _ _ hm.1 hm.2
    | ub => rw [he] at hm; exact hm.elim

/-- With exceptions at any element operation of any call, as long as no operation constructs over
a destroyed object with a throwing constructor: the program either has been terminated (by an
exception in one of the calls listed in `EndsProgram`; all others let it through) or every object still holds exactly the live
alternative its flag says, the operations that threw left the alternatives of the objects involved
as they were, and nobody else was affected.  Missing from the claim: termination instead of the
exception, and the operations excluded by `SafeHistory`; see the theorems below. -/
theorem c38_exceptions_partial (tr : Tr) (mvT : T → T) (mvE : E → E) (h : History T E)
    (hl : SafeHistory tr mvT mvE (fun _ => none) h) :
    match runAll tr mvT mvE (fun _ => none) h with
    | .running s' =>
      (∀ i o, s' i = some o → (∃ t, o = ⟨true, .val t⟩) ∨ ∃ e, o = ⟨false, .err e⟩) ∧
      Reaches mvT mvE (fun _ => none) h (abs s')
    | .terminated => EndedBy tr mvT mvE (fun _ => none) h
    | .ub => False :=
  run_safe tr mvT mvE h (fun _ => none) (by intro i o h; cases h) hl

/-- Types like std::string: copying can throw, moving cannot. -/
def strLike : Tr := ⟨false, true, false, true, false, false, false, true, false, true⟩

example : LegalHistory (T := Nat) (E := Nat) id id (fun _ => none)
    [(.ctorVal 0 5, ⟨none, (9, 9)⟩), (.ctorErr 1 7, ⟨none, (9, 9)⟩), (.swap 0 1, ⟨none, (9, 9)⟩),
     (.assignCopy 0 1, ⟨none, (9, 9)⟩), (.emplace 1 3, ⟨none, (9, 9)⟩)] := by
  simp [LegalHistory, Legal, effect, Results.set]

example : SafeHistory (T := Nat) (E := Nat) strLike id id (fun _ => none)
    [(.ctorVal 0 5, ⟨none, (9, 9)⟩), (.assignVal 0 6, ⟨some 0, (9, 9)⟩)] := by
  refine ⟨rfl, trivial, trivial, ⟨?_, rfl, .inr rfl, trivial, fun _ _ _ => trivial⟩, ?_⟩
  · simp [Legal, effect, Results.set]
  · intro b hb; exact absurd rfl hb

/-! ## Where the claim fails -/

/-- emplace() on an object with a value: if the constructor throws, the old value has been
destroyed but the object still claims to have a value; its destructor destroys it again
(expected.h:1664-1667). -/
theorem c38_emplace_violated (tr : Tr) (mvT : T → T) (mvE : E → E) (s : Store T E) (i : Nat)
    (u t : T) (l : T × E) (hi : s i = some ⟨true, .val u⟩) (ht : tr.tFrom = false) :
    ∃ s', exec tr mvT mvE (.emplace i t) ⟨some 0, l⟩ s 0 = .throw s' 1 ∧
      s' i = some ⟨true, .raw⟩ ∧ exec tr mvT mvE (.dtor i) ⟨none, l⟩ s' 0 = .ub := by
  refine ⟨s.set i (some ⟨true, .raw⟩), ?_, by simp, ?_⟩
  · simp [exec, emplace, ht, has, get, hi, destroyVal, val, put, newVal, fresh]
  · simp [exec, dtor, has, get, destroyVal, val]

/-- Value assignment, emplace() and emplace() with an initializer list on an object with an error:
if the constructor of the value throws, the saved error is assigned to the destroyed error object
(expected.h:1607-1610, 1676-1679, 1716-1719). -/
theorem c38_restore_error_violated (tr : Tr) (mvT : T → T) (mvE : E → E) (s : Store T E) (i : Nat)
    (e : E) (t : T) (l : T × E) (hi : s i = some ⟨false, .err e⟩) (ht : tr.tFrom = false)
    (he : tr.eMove = true) :
    exec tr mvT mvE (.assignVal i t) ⟨some 0, l⟩ s 0 = .ub ∧
    exec tr mvT mvE (.emplace i t) ⟨some 0, l⟩ s 0 = .ub ∧
    exec tr mvT mvE (.emplaceList i t) ⟨some 0, l⟩ s 0 = .ub := by
  refine ⟨?_, ?_, ?_⟩
  · simp [exec, assignVal, ht, he, has, get, hi, takeErr, destroyErr, err, put, newVal, fresh,
      setCell, errAssign]
  · simp [exec, emplace, ht, he, has, get, hi, takeErr, destroyErr, err, put, newVal, fresh,
      setCell, errAssign]
  · simp [exec, emplaceList, ht, he, has, get, hi, takeErr, destroyErr, err, put, newVal, fresh,
      setCell, errAssign]

/-- swap() of a value and an error: if the move constructor that can throw does so, the saved
alternative is assigned to a destroyed object (expected.h:1779-1782, 1802-1805). -/
theorem c38_swap_violated (tr : Tr) (mvT : T → T) (mvE : E → E) (s : Store T E) (i j : Nat)
    (hij : i ≠ j) (u : T) (e : E) (l : T × E) (hi : s i = some ⟨true, .val u⟩)
    (hj : s j = some ⟨false, .err e⟩) (h : tr.tMove ≠ tr.eMove) :
    exec tr mvT mvE (.swap i j) ⟨some 0, l⟩ s 0 = .ub := by
  have hji : j ≠ i := fun h => hij h.symm
  cases ht : tr.tMove <;> cases he : tr.eMove <;> simp_all
  · simp [exec, swap, swapBody, swapOne, ht, he, has, get, hi, hj, takeErr, destroyErr, err, val, put,
      newValMove, fresh, setCell, errAssign, set_other, hij, hji]
  · simp [exec, swap, swapBody, swapOne, ht, he, has, get, hi, hj, takeVal, destroyVal, err, val, put,
      newErrMove, fresh, setCell, valAssign, set_other, hij, hji]

/-- Copy assignment of a value to an object with an error, with a type whose copy constructor can
throw: the exception does not leave the previous content in place, it terminates the program,
because assign() (if moving cannot throw, as for std::string; expected.h:664) or construct()
(expected.h:622) is declared noexcept. -/
theorem c38_copy_assignment_violated (tr : Tr) (mvT : T → T) (mvE : E → E) (s : Store T E)
    (i j : Nat) (hij : i ≠ j) (u : T) (e : E) (l : T × E) (hi : s i = some ⟨false, .err e⟩)
    (hj : s j = some ⟨true, .val u⟩) (ht : tr.tCopy = false) (he : tr.eMove = true) :
    exec tr mvT mvE (.assignCopy i j) ⟨some 0, l⟩ s 0 = .terminate := by
  have hji : j ≠ i := fun h => hij h.symm
  cases hm : tr.tMove
  · simp [exec, assignCopy, ht, hm, he, has, get, hi, hj, takeErr, destroyErr, err, val, put, newVal,
      fresh, setCell, construct, set_other, hji]
  · simp [exec, assignCopy, ht, hm, has, get, hi, hj, val, tmpVal]

/-- Copy construction with a throwing copy constructor terminates the program (expected.h:627). -/
theorem c38_copy_constructor_violated (tr : Tr) (mvT : T → T) (mvE : E → E) (s : Store T E)
    (i j : Nat) (hij : i ≠ j) (u : T) (l : T × E) (hj : s j = some ⟨true, .val u⟩)
    (ht : tr.tCopy = false) :
    exec tr mvT mvE (.ctorCopy i j) ⟨some 0, l⟩ s 0 = .terminate := by
  have hji : j ≠ i := fun h => hij h.symm
  simp [exec, ctorCopy, ht, has, get, hj, val, put, newVal, born, fresh, construct, set_other, hji]

/-- The converting constructors from expected<U, G> construct over the live default value of the
base class without destroying it, whatever the source holds and without any exception
(expected.h:1488-1544): if the destructor of T releases a resource, it is lost. -/
theorem c38_converting_constructor_violated (tr : Tr) (s : Store T E) (i : Nat) (d : T)
    (c : Except E T) (l : T × E) : ctorConvert tr i d c ⟨none, l⟩ s 0 = .ub := by
  cases htf : tr.tFrom <;> cases c <;>
    simp [ctorConvert, ctorVal, construct, constructError, newVal, newErr, fresh, get, htf]

example : (fun k => if k = 0 then some ⟨true, .val 3⟩ else none : Store Nat Nat) 0 =
    some ⟨true, .val 3⟩ := rfl

end Gul14.Exp
