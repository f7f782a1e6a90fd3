import Verif.Lifetime
import Verif.LifetimeWp

/-!
# expected<void, E>: lifetimes of the error (C38)

For expected<void, E> there is no emplace, no value assignment and no swap (their enable_if
conditions or the bodies need a value type); all other operations are modelled.
-/
namespace Gul14.ExpVoid

/-- expected_storage_base<void, E>, expected.h:546-614: the flag, and the live error, if any. -/
structure Obj (E : Type) where
  has : Bool
  err : Option E
  deriving DecidableEq, Repr

/-- The members of expected_storage_base for void, expected.h:546-614. -/
abbrev Store (E : Type) := Nat → Option (Obj E)

def Store.set {E : Type} (s : Store E) (i : Nat) (o : Option (Obj E)) : Store E :=
  fun k => if k = i then o else s k

/-- Which operations of `E` cannot throw. -/
structure Tr where
  copy : Bool
  move : Bool
  assign : Bool
  moveAssign : Bool

abbrev M (E : Type) := LM E (Store E)

variable {E : Type} (tr : Tr) (mv : E → E)

def get (i : Nat) : M E (Obj E) := fun _ s n =>
  match s i with
  | some o => .ok o s n
  | none => .ub

def put (i : Nat) (o : Obj E) : M E Unit := fun _ s n => .ok () (s.set i (some o)) n

def setErr (s : Store E) (i : Nat) (e : Option E) : Store E :=
  match s i with
  | some o => s.set i (some { o with err := e })
  | none => s

/-- The error of object `i`, which has to be alive. -/
def err (i : Nat) : M E E := do
  match (← get i).err with
  | some e => pure e
  | none => LM.error

def has (i : Nat) : M E Bool := do return (← get i).has

def setHas (i : Nat) (b : Bool) : M E Unit := do put i { (← get i) with has := b }

/-- geterr().~unexpected<E>() -/
def destroyErr (i : Nat) : M E Unit := do
  let _ ← err i
  put i { (← get i) with err := none }

/-- Storage for an error without a live error. -/
def fresh (i : Nat) : M E Unit := do
  match (← get i).err with
  | none => pure ()
  | some _ => LM.error

/-- Placement new of an error with value `e`. -/
def newErr (nothrow : Bool) (i : Nat) (e : E) : M E Unit := do
  fresh i
  LM.elemIf nothrow (fun s => setErr s i (some e)) (fun _ s => s)

/-- Placement new of an error, moving from that of object `j`. -/
def newErrMove (i j : Nat) : M E Unit := do
  let e ← err j
  fresh i
  LM.elemIf tr.move (fun s => setErr (setErr s i (some e)) j (some (mv e)))
    (fun l s => setErr s j (some l))

/-- Assignment of `e` to the error of object `i`. -/
def errAssign (nothrow : Bool) (i : Nat) (e : E) : M E Unit := do
  let _ ← err i
  LM.elemIf nothrow (fun s => setErr s i (some e)) (fun l s => setErr s i (some l))

/-- Move assignment of the error of object `j` to that of object `i`. -/
def errAssignMove (i j : Nat) : M E Unit := do
  let _ ← err i
  let e ← err j
  LM.elemIf tr.moveAssign (fun s => setErr (setErr s i (some e)) j (some (mv e)))
    (fun l s => setErr (setErr s i (some l)) j (some l))

/-- construct(), construct_with(), expected.h:804-810. -/
def construct (i : Nat) : M E Unit := setHas i true

/-- construct_error() with a copy, expected.h:812-816 (noexcept). -/
def constructError (nothrow : Bool) (i : Nat) (e : E) : M E Unit := LM.noexcept do
  newErr nothrow i e
  setHas i false

/-- construct_error() with the moved error of object `j`, expected.h:812-816 (noexcept). -/
def constructErrorMove (i j : Nat) : M E Unit := LM.noexcept do
  newErrMove tr mv i j
  setHas i false

/-- The default and in_place constructors, expected.h:548-557, 584-587. -/
def ctorVal (i : Nat) : M E Unit := put i ⟨true, none⟩

/-- The constructors from unexpected and unexpect_t, expected.h:559-571, 589-601, 1437-1486. -/
def ctorErr (i : Nat) (e : E) : M E Unit :=
  LM.elemIf tr.copy (fun s => s.set i (some ⟨false, some e⟩)) (fun _ s => s)

/-- The copy constructor, expected.h:866-873. -/
def ctorCopy (i j : Nat) : M E Unit := do
  put i ⟨false, none⟩
  if ← has j then construct i else constructError tr.copy i (← err j)

/-- The move constructor, expected.h:895-903. -/
def ctorMove (i j : Nat) : M E Unit := do
  put i ⟨false, none⟩
  if ← has j then construct i else constructErrorMove tr mv i j

/-- ~expected_storage_base(), expected.h:603-607, and end of the lifetime. -/
def dtor (i : Nat) : M E Unit := do
  if !(← has i) then destroyErr i else pure ()
  LM.setState (Store.set (← LM.getState) i none)

/-- Copy assignment: assign(rhs), expected.h:818-831 (noexcept). -/
def assignCopy (i j : Nat) : M E Unit := LM.noexcept do
  if !(← has i) then
    if ← has j then do
      destroyErr i
      construct i
    else errAssign tr.assign i (← err j)
  else
    if !(← has j) then constructError tr.copy i (← err j) else pure ()

/-- Move assignment: assign(rhs), expected.h:818-831 (noexcept). -/
def assignMove (i j : Nat) : M E Unit := LM.noexcept do
  if !(← has i) then
    if ← has j then do
      destroyErr i
      construct i
    else errAssignMove tr mv i j
  else
    if !(← has j) then constructErrorMove tr mv i j else pure ()

/-- operator=(const unexpected<G>&), expected.h:1620-1633; destroy_val() does nothing, 846-848. -/
def assignErr (i : Nat) (e : E) : M E Unit := do
  if !(← has i) then errAssign tr.assign i e
  else
    newErr tr.copy i e
    setHas i false

/-- operator=(unexpected<G>&&), expected.h:1635-1648 (noexcept). -/
def assignErrMove (i : Nat) (e : E) : M E Unit := LM.noexcept do
  if !(← has i) then errAssign tr.moveAssign i e
  else
    newErr tr.move i e
    setHas i false

inductive Op (E : Type) where
  | ctorVal (i : Nat)
  | ctorErr (i : Nat) (e : E)
  | ctorCopy (i j : Nat)
  | ctorMove (i j : Nat)
  | dtor (i : Nat)
  | assignCopy (i j : Nat)
  | assignMove (i j : Nat)
  | assignErr (i : Nat) (e : E)
  | assignErrMove (i : Nat) (e : E)

/-- expected.h:801-849 with the storage of 546-614. -/
def exec : Op E → M E Unit
  | .ctorVal i => ctorVal i
  | .ctorErr i e => ctorErr tr i e
  | .ctorCopy i j => ctorCopy tr i j
  | .ctorMove i j => ctorMove tr mv i j
  | .dtor i => dtor i
  | .assignCopy i j => assignCopy tr i j
  | .assignMove i j => assignMove tr mv i j
  | .assignErr i e => assignErr tr i e
  | .assignErrMove i e => assignErrMove tr i e

end Gul14.ExpVoid

/-! ## Specification -/
namespace Gul14.Spec.ExpVoid
open Gul14.ExpVoid (Op Tr)
variable {E : Type}

/-- What is seen of the objects: `none`: does not exist; `some none`: success; `some (some e)`: the
error `e`. -/
abbrev Results (E : Type) := Nat → Option (Option E)

def Results.set (a : Results E) (i : Nat) (x : Option (Option E)) : Results E :=
  fun k => if k = i then x else a k

/-- The objects exist, a new one does not yet; the operation is offered for these types
(expected.h:1621, 1636). -/
def Legal (tr : Tr) (a : Results E) : Op E → Prop
  | .ctorVal i | .ctorErr i _ => a i = none
  | .ctorCopy i j | .ctorMove i j => a i = none ∧ a j ≠ none
  | .dtor i => a i ≠ none
  | .assignErr i _ => a i ≠ none ∧ tr.copy = true
  | .assignErrMove i _ => a i ≠ none ∧ tr.move = true
  | .assignCopy i j | .assignMove i j => a i ≠ none ∧ a j ≠ none

/-- Content after having been moved from. -/
def moved (mv : E → E) : Option (Option E) → Option (Option E)
  | some (some e) => some (some (mv e))
  | x => x

def effect (mv : E → E) (a : Results E) : Op E → Results E
  | .ctorVal i => a.set i (some none)
  | .ctorErr i e | .assignErr i e | .assignErrMove i e => a.set i (some (some e))
  | .ctorCopy i j | .assignCopy i j => a.set i (a j)
  | .ctorMove i j | .assignMove i j => (a.set i (a j)).set j (moved mv (a j))
  | .dtor i => a.set i none

/-- Exceptions that reach the caller: of the constructor from an error, which leaves no object, and
of the assignment of an error to an error, which leaves some error. -/
def Thrown (tr : Tr) (a a' : Results E) : Op E → Prop
  | .ctorErr _ _ => tr.copy = false ∧ a' = a
  | .assignErr i _ => tr.assign = false ∧ (∃ e, a i = some (some e)) ∧
      ∃ e, a' = a.set i (some (some e))
  | _ => False

/-- Calls in which an exception ends the program: an error is copied or moved (constructed or
assigned) in a function declared noexcept. -/
def Ends (tr : Tr) (a : Results E) : Op E → Prop
  | .ctorCopy _ j => tr.copy = false ∧ ∃ e, a j = some (some e)
  | .ctorMove _ j => tr.move = false ∧ ∃ e, a j = some (some e)
  | .assignCopy i j => (∃ e, a j = some (some e)) ∧
      ((a i = some none ∧ tr.copy = false) ∨ (a i ≠ some none ∧ tr.assign = false))
  | .assignMove i j => (∃ e, a j = some (some e)) ∧
      ((a i = some none ∧ tr.move = false) ∨ (a i ≠ some none ∧ tr.moveAssign = false))
  | .assignErrMove i _ => tr.moveAssign = false ∧ ∃ e, a i = some (some e)
  | _ => False

end Gul14.Spec.ExpVoid

namespace Gul14.ExpVoid
open Spec.ExpVoid

variable {E : Type} (tr : Tr) (mv : E → E)

/-- What is seen of the objects (has_value() and error()). -/
def abs (s : Store E) : Results E := fun i => (s i).map (·.err)

/-- An object has a live error exactly if it does not have a value. -/
def Inv (s : Store E) : Prop := ∀ i o, s i = some o → (o.has = true ↔ o.err = none)

theorem inv_cases {s : Store E} (h : Inv s) {i : Nat} (hi : abs s i ≠ none) :
    (s i = some ⟨true, none⟩ ∧ abs s i = some none) ∨
    ∃ e, s i = some ⟨false, some e⟩ ∧ abs s i = some (some e) := by
  unfold abs at *
  cases hs : s i with
  | none => simp [hs] at hi
  | some o =>
    have h1 := h i o hs
    obtain ⟨b, e⟩ := o
    cases b <;> cases e <;> simp_all

theorem abs_set (s : Store E) (i : Nat) (o : Option (Obj E)) :
    abs (s.set i o) = (abs s).set i (o.map (·.err)) := by
  funext k
  unfold abs Store.set Results.set
  split <;> rfl

theorem set_self (s : Store E) (i : Nat) (o : Option (Obj E)) : s.set i o i = o := by
  simp [Store.set]

theorem set_other (s : Store E) {i k : Nat} (o : Option (Obj E)) (h : k ≠ i) :
    s.set i o k = s k := by simp [Store.set, h]

theorem set_set (s : Store E) (i : Nat) (o o' : Option (Obj E)) :
    (s.set i o).set i o' = s.set i o' := by
  funext k; unfold Store.set; split <;> rfl

theorem inv_set {s : Store E} (h : Inv s) (i : Nat) (o : Obj E) (ho : o.has = true ↔ o.err = none) :
    Inv (s.set i (some o)) := by
  intro k o' hk
  unfold Store.set at hk
  split at hk
  · cases hk; exact ho
  · exact h k o' hk

theorem inv_none {s : Store E} (h : Inv s) (i : Nat) : Inv (s.set i none) := by
  intro k o' hk
  unfold Store.set at hk
  split at hk
  · cases hk
  · exact h k o' hk

def Meets (f : Fail E) (a : Results E) (op : Op E) : Out (Store E) Unit → Prop
  | .ok _ s' _ => Inv s' ∧ abs s' = effect mv a op
  | .throw s' _ => f.at? ≠ none ∧ Inv s' ∧ Thrown tr a (abs s') op
  | .terminate => f.at? ≠ none ∧ Ends tr a op
  | .ub => False

theorem elemIf_apply {V σ : Type} (b : Bool) (g : σ → σ) (h : V → σ → σ) (f : Fail V) (s : σ)
    (n : Nat) : LM.elemIf b g h f s n =
      if b = true then .ok () (g s) n
      else if f.at? = some n then .throw (h f.left s) (n + 1) else .ok () (g s) (n + 1) := by
  cases b <;> simp [LM.elemIf, LM.elem]

theorem rset_set (a : Results E) (i : Nat) (x y : Option (Option E)) :
    (a.set i x).set i y = a.set i y := by
  funext k; unfold Results.set; split <;> rfl

theorem set_back (s : Store E) {i j : Nat} (h : j ≠ i) (x y z : Option (Obj E)) :
    ((s.set i x).set j y).set i z = (s.set i z).set j y := by
  funext k; unfold Store.set
  by_cases h1 : k = i
  · subst h1; simp [Ne.symm h]
  · simp [h1]

theorem rset_back (s : Results E) {i j : Nat} (h : j ≠ i) (x y z : Option (Option E)) :
    ((s.set i x).set j y).set i z = (s.set i z).set j y := by
  funext k; unfold Results.set
  by_cases h1 : k = i
  · subst h1; simp [Ne.symm h]
  · simp [h1]

attribute [local simp] set_self set_set abs_set LM.noexcept elemIf_apply effect Meets Ends Thrown
  inv_set inv_none moved rset_set

local macro "ev_simp" : tactic =>
  `(tactic| simp [exec, ctorVal, ctorErr, ctorCopy, ctorMove, dtor, assignCopy, assignMove,
      assignErr, assignErrMove, construct, constructError, constructErrorMove, errAssignMove,
      errAssign, newErrMove, newErr, fresh, destroyErr, setHas, has, err, setErr, put, get, set_other, set_back, rset_back, *])

theorem step_meets (op : Op E) (f : Fail E) (s : Store E) (n : Nat) (hs : Inv s)
    (hl : Legal tr (abs s) op) : Meets tr mv f (abs s) op (exec tr mv op f s n) := by
  obtain ⟨b1, b2, b3, b4⟩ := tr
  obtain ⟨at?, l⟩ := f
  have hc : at? = some n ∨ at? ≠ some n := by
    by_cases h : at? = some n
    · exact .inl h
    · exact .inr h
  have hself : ∀ i x, abs s i = x → (abs s).set i x = abs s := by
    intro i x h; funext k; unfold Results.set; split
    · next h1 => rw [h1, h]
    · rfl
  cases op with
  | ctorVal i => ev_simp
  | ctorErr i e => cases b1 <;> rcases hc with rfl | hc <;> ev_simp
  | dtor i =>
    rcases inv_cases hs hl with ⟨h1, h2⟩ | ⟨e, h1, h2⟩ <;> ev_simp
  | assignErr i e =>
    obtain ⟨hl, hb⟩ := hl
    simp at hb; subst hb
    rcases inv_cases hs hl with ⟨h1, h2⟩ | ⟨e', h1, h2⟩
    · ev_simp
    · cases b3 <;> rcases hc with rfl | hc <;> ev_simp
      exact ⟨l, rfl⟩
  | assignErrMove i e =>
    obtain ⟨hl, hb⟩ := hl
    simp at hb; subst hb
    rcases inv_cases hs hl with ⟨h1, h2⟩ | ⟨e', h1, h2⟩
    · ev_simp
    · cases b4 <;> rcases hc with rfl | hc <;> ev_simp
  | ctorCopy i j =>
    have hij : j ≠ i := by rintro rfl; exact hl.2 hl.1
    rcases inv_cases hs hl.2 with ⟨h1, h2⟩ | ⟨e', h1, h2⟩
    · ev_simp
    · cases b1 <;> rcases hc with rfl | hc <;> ev_simp
  | ctorMove i j =>
    have hij : j ≠ i := by rintro rfl; exact hl.2 hl.1
    have hij' : i ≠ j := fun h => hij h.symm
    rcases inv_cases hs hl.2 with ⟨h1, h2⟩ | ⟨e', h1, h2⟩
    · ev_simp
      funext k
      by_cases h3 : k = j <;> simp_all [Results.set]
    · cases b2 <;> rcases hc with rfl | hc <;> ev_simp
  | assignCopy i j =>
    rcases inv_cases hs hl.1 with ⟨h1, h2⟩ | ⟨e, h1, h2⟩ <;>
      rcases inv_cases hs hl.2 with ⟨h3, h4⟩ | ⟨e', h3, h4⟩
    · ev_simp
    · cases b1 <;> rcases hc with rfl | hc <;> ev_simp
    · ev_simp
    · cases b3 <;> rcases hc with rfl | hc <;> ev_simp
  | assignMove i j =>
    by_cases hij : j = i
    · subst hij
      rcases inv_cases hs hl.1 with ⟨h1, h2⟩ | ⟨e, h1, h2⟩
      · ev_simp
      · cases b4 <;> rcases hc with rfl | hc <;> ev_simp
    · have hij' : i ≠ j := fun h => hij h.symm
      rcases inv_cases hs hl.1 with ⟨h1, h2⟩ | ⟨e, h1, h2⟩ <;>
        rcases inv_cases hs hl.2 with ⟨h3, h4⟩ | ⟨e', h3, h4⟩
      · ev_simp
      · cases b2 <;> rcases hc with rfl | hc <;> ev_simp
      · ev_simp
        funext k
        by_cases h5 : k = j <;> by_cases h6 : k = i <;> simp_all [Results.set]
      · cases b4 <;> rcases hc with rfl | hc <;> ev_simp

/-- A history: every operation comes with the element operation that throws in it, if any. -/
abbrev History (E : Type) := List (Op E × Fail E)

inductive Final (σ : Type) where
  | running (s : σ)
  | terminated
  | ub
  deriving DecidableEq

/-- Runs a history; the program catches the exceptions. -/
def runAll : Store E → History E → Final (Store E)
  | s, [] => .running s
  | s, (op, f) :: h =>
    match exec tr mv op f s 0 with
    | .ok _ s' _ => runAll s' h
    | .throw s' _ => runAll s' h
    | .terminate => .terminated
    | .ub => .ub

/-- The content that the specification allows after a history. -/
inductive Reaches : Results E → History E → Results E → Prop where
  | nil (a) : Reaches a [] a
  | done (a op f h a') : Reaches (effect mv a op) h a' → Reaches a ((op, f) :: h) a'
  | thrown (a b op f h a') : f.at? ≠ none → Thrown tr a b op → Reaches b h a' →
      Reaches a ((op, f) :: h) a'

/-- At some point of the history an exception ends the program. -/
inductive EndedBy : Results E → History E → Prop where
  | here (a op f h) : f.at? ≠ none → Ends tr a op → EndedBy a ((op, f) :: h)
  | done (a op f h) : EndedBy (effect mv a op) h → EndedBy a ((op, f) :: h)
  | thrown (a b op f h) : f.at? ≠ none → Thrown tr a b op → EndedBy b h → EndedBy a ((op, f) :: h)

/-- The history uses objects that exist at the time, and operations that the type offers. -/
def LegalHistory : Results E → History E → Prop
  | _, [] => True
  | a, (op, f) :: h => Legal tr a op ∧ LegalHistory (effect mv a op) h ∧
      ∀ b, f.at? ≠ none → Thrown tr a b op → LegalHistory b h

theorem run_history (h : History E) : ∀ s : Store E, Inv s → LegalHistory tr mv (abs s) h →
    match runAll tr mv s h with
    | .running s' => Inv s' ∧ Reaches tr mv (abs s) h (abs s')
    | .terminated => EndedBy tr mv (abs s) h
    | .ub => False := by
  induction h with
  | nil => intro s hs _; exact ⟨hs, .nil _⟩
  | cons x h ih =>
    obtain ⟨op, f⟩ := x
    intro s hs hl
    have hm := step_meets tr mv op f s 0 hs hl.1
    unfold runAll
    cases he : exec tr mv op f s 0 with
    | ok a s' n =>
      rw [he] at hm
      obtain ⟨h1, h2⟩ := hm
      have h3 := ih s' h1 (by rw [h2]; exact hl.2.1)
      simp only
      cases hr : runAll tr mv s' h with
      | running s'' =>
        rw [hr] at h3
        refine ⟨h3.1, .done _ _ _ _ _ ?_⟩
        rw [← h2]; exact h3.2
      | terminated =>
        rw [hr, h2] at h3
        exact .done _ _ _ _ h3
      | ub => rw [hr] at h3; exact h3.elim
    | throw s' n =>
      rw [he] at hm
      obtain ⟨h0, h1, h2⟩ := hm
      have h3 := ih s' h1 (hl.2.2 _ h0 h2)
      simp only
      cases hr : runAll tr mv s' h with
      | running s'' => rw [hr] at h3; exact ⟨h3.1, .thrown _ _ _ _ _ _ h0 h2 h3.2⟩
      | terminated => rw [hr] at h3; exact .thrown _ _ _ _ _ h0 h2 h3
      | ub => rw [hr] at h3; exact h3.elim
    | terminate => rw [he] at hm; exact .here _ _ _ _ hm.1 hm.2
    | ub => rw [he] at hm; exact hm.elim

/-- expected<void, E>, every history of construction, copies, moves, assignments and destruction,
with an exception at any element operation of any call: there is no undefined behaviour, and the
program either has been terminated by an exception in one of the calls listed in `Ends`, or every
object has a live error exactly if it has no value, and the specified content.  Missing from the
claim: the calls in `Ends` terminate the program instead of passing the exception on. -/
theorem c38_void_partial (h : History E) (hl : LegalHistory tr mv (fun _ => none) h) :
    match runAll tr mv (fun _ => none) h with
    | .running s' => (∀ i o, s' i = some o → (o.has = true ↔ o.err = none)) ∧
        Reaches tr mv (fun _ => none) h (fun i => (s' i).map (·.err))
    | .terminated => EndedBy tr mv (fun _ => none) h
    | .ub => False :=
  run_history tr mv h (fun _ => none) (by intro i o h; cases h) hl

/-- If no operation of the error type throws, nothing terminates the program. -/
theorem c38_void_nothrow_partial (h : History E) (hn : ∀ x ∈ h, x.2.at? = none)
    (hl : LegalHistory tr mv (fun _ => none) h) :
    ∃ s', runAll tr mv (fun _ => none) h = .running s' ∧
      (∀ i o, s' i = some o → (o.has = true ↔ o.err = none)) ∧
      (fun i => (s' i).map (·.err)) = (h.map (·.1)).foldl (effect mv) (fun _ => none) := by
  have key : ∀ (h : History E) a a', (∀ x ∈ h, x.2.at? = none) → Reaches tr mv a h a' →
      a' = (h.map (·.1)).foldl (effect mv) a := by
    intro h a a' hn hr
    induction hr with
    | nil => rfl
    | done a op f h a' _ ih => exact ih (fun x hx => hn x (by simp [hx]))
    | thrown a b op f h a' h0 _ _ _ => exact (h0 (hn (op, f) (by simp))).elim
  have key2 : ∀ (h : History E) a, (∀ x ∈ h, x.2.at? = none) → ¬ EndedBy tr mv a h := by
    intro h a hn hr
    induction hr with
    | here a op f h h0 _ => exact h0 (hn (op, f) (by simp))
    | done a op f h _ ih => exact ih (fun x hx => hn x (by simp [hx]))
    | thrown a b op f h h0 _ _ _ => exact h0 (hn (op, f) (by simp))
  have := c38_void_partial tr mv h hl
  cases hr : runAll tr mv (fun _ => none) h with
  | running s' =>
    rw [hr] at this
    exact ⟨s', rfl, this.1, key h _ _ hn this.2⟩
  | terminated => rw [hr] at this; exact (key2 h _ hn this).elim
  | ub => rw [hr] at this; exact this.elim

/-- The copy constructor of expected<void, E> terminates the program if copying the error throws
(expected_copy_base calls construct_error(), which is declared noexcept for a void value type). -/
theorem c38_void_copy_terminates (mv : Nat → Nat) : ∃ h : History Nat,
    LegalHistory ⟨false, true, true, true⟩ mv (fun _ => none) h ∧
    runAll ⟨false, true, true, true⟩ mv (fun _ => none) h = .terminated := by
  refine ⟨[(.ctorErr 0 7, ⟨none, 0⟩), (.ctorCopy 1 0, ⟨some 0, 0⟩)], ?_, rfl⟩
  simp [LegalHistory, Legal, Thrown, effect, Results.set]

/-- Non-trivial case: error, copy, move, success assigned to an error, error assigned to success,
a throwing assignment, destruction. -/
def sample : History Nat :=
  [(.ctorErr 0 7, ⟨none, 0⟩), (.ctorVal 1, ⟨none, 0⟩), (.ctorCopy 2 0, ⟨none, 0⟩),
   (.assignMove 1 0, ⟨none, 0⟩), (.assignErr 2 5, ⟨some 0, 99⟩), (.dtor 0, ⟨none, 0⟩)]

example : LegalHistory ⟨true, true, false, true⟩ (fun _ => 0) (fun _ => none) sample := by
  simp only [sample, LegalHistory, Legal, Thrown, effect]
  refine ⟨by simp, ⟨by simp [Results.set], ⟨by simp [Results.set], ⟨by simp [Results.set],
    ⟨by simp [Results.set], ⟨by simp [Results.set], trivial, by simp⟩, ?_⟩, by simp⟩, by simp⟩,
    by simp⟩, by simp⟩
  intro b _ hb
  obtain ⟨-, -, e, rfl⟩ := hb
  exact ⟨by simp [Results.set], trivial, by simp⟩

example : (match runAll ⟨true, true, false, true⟩ (fun _ => 0) (fun _ => none) sample with
    | .running s => [s 0, s 1, s 2]
    | _ => []) = [none, some ⟨false, some 7⟩, some ⟨false, some 99⟩] := by decide +kernel

end Gul14.ExpVoid
