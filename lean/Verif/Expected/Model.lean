import Verif.Lifetime

/-!
# Model of include/gul14/expected.h: storage, construction, assignment, emplace, swap

A store holds the expected objects that exist, by number.  `mvT`, `mvE` give the value of an object
after it has been moved from.  The overloads depend on which operations of `T` and `E` are declared
noexcept (`Tr`); an operation that is so declared does not throw.  The code is that for
GUL14_EXPECTED_EXCEPTIONS_ENABLED with assertions; `T` is not void.  `unexpected<E>` (148-177) is
represented by its `E`.
-/
namespace Gul14.Exp

/-- The union in expected_storage_base, expected.h:407-411. -/
inductive UCell (T E : Type) where
  | raw
  | val (t : T)
  | err (e : E)
  deriving DecidableEq, Repr

/-- expected_storage_base, expected.h:368-413. -/
structure Obj (T E : Type) where
  has : Bool
  cell : UCell T E
  deriving DecidableEq, Repr

/-- Which operations of the types cannot throw. The traits that select the branches of
expected.h:643-695 and 1554-1803. -/
structure Tr where
  tCopy : Bool
  tMove : Bool
  tAssign : Bool
  tMoveAssign : Bool
  /-- `T` from the arguments of the value constructors, value assignment and emplace. -/
  tFrom : Bool
  /-- assignment to `T` from the argument of the value assignment. -/
  tAssignFrom : Bool
  eCopy : Bool
  eMove : Bool
  eAssign : Bool
  eMoveAssign : Bool
  deriving DecidableEq, Repr

/-- The members of expected_storage_base (expected.h:368-614), one per object. -/
abbrev Store (T E : Type) := Nat → Option (Obj T E)

/-- Assignment to one of these members (expected.h:368-614). -/
def Store.set {T E : Type} (s : Store T E) (i : Nat) (o : Option (Obj T E)) : Store T E :=
  fun k => if k = i then o else s k

/-- Calls on a store; a failed operation leaves the value `left.1` or `left.2`. Language semantics of
the bodies of expected.h:616-775, 1532-1803; no code in /repo of its own. -/
abbrev M (T E : Type) := LM (T × E) (Store T E)

variable {T E : Type} (tr : Tr) (mvT : T → T) (mvE : E → E)

def get (i : Nat) : M T E (Obj T E) := fun _ s n =>
  match s i with
  | some o => .ok o s n
  | none => .ub

def put (i : Nat) (o : Obj T E) : M T E Unit := fun _ s n => .ok () (s.set i (some o)) n

def setCell (s : Store T E) (i : Nat) (c : UCell T E) : Store T E :=
  match s i with
  | some o => s.set i (some { o with cell := c })
  | none => s

/-- The value alternative of object `i`, which has to be alive: get(), val(). expected.h:779-782,
valptr() and val() at 1167-1195. -/
def val (i : Nat) : M T E T := do
  match (← get i).cell with
  | .val t => pure t
  | _ => LM.error

/-- The error alternative of object `i`, which has to be alive: geterr(), err(). expected.h:784-791,
errptr() and err() at 1167-1195. -/
def err (i : Nat) : M T E E := do
  match (← get i).cell with
  | .err e => pure e
  | _ => LM.error

/-- has_value(), expected.h:1871. -/
def has (i : Nat) : M T E Bool := do return (← get i).has

/-- Assignments to m_has_val, expected.h:622-640 and 1532-1803. -/
def setHas (i : Nat) (b : Bool) : M T E Unit := do put i { (← get i) with has := b }

/-- val().~T(), destroy_val(), expected.h:795. -/
def destroyVal (i : Nat) : M T E Unit := do
  let _ ← val i
  put i { (← get i) with cell := .raw }

/-- err().~unexpected<E>() The destructor calls `geterr().~unexpected<E>()`, expected.h:643-695 and
1554-1717. -/
def destroyErr (i : Nat) : M T E Unit := do
  let _ ← err i
  put i { (← get i) with cell := .raw }

/-- The storage of object `i` holds no live object. -/
def fresh (i : Nat) : M T E Unit := do
  match (← get i).cell with
  | .raw => pure ()
  | _ => LM.error

/-- Placement new of a `T` with value `t`; the source is not an alternative of a stored object.
Placement new as in expected.h:617-620. -/
def newVal (nothrow : Bool) (i : Nat) (t : T) : M T E Unit := do
  fresh i
  LM.elemIf nothrow (fun s => setCell s i (.val t)) (fun _ s => s)

/-- Placement new of a `T`, moving from the value of object `j`. Placement new as in expected.h:622-630. -/
def newValMove (i j : Nat) : M T E Unit := do
  let t ← val j
  fresh i
  LM.elemIf tr.tMove (fun s => setCell (setCell s i (.val t)) j (.val (mvT t)))
    (fun l s => setCell s j (.val l.1))

/-- Placement new of an `unexpected<E>` with value `e`. Placement new as in expected.h:627-630. -/
def newErr (nothrow : Bool) (i : Nat) (e : E) : M T E Unit := do
  fresh i
  LM.elemIf nothrow (fun s => setCell s i (.err e)) (fun _ s => s)

/-- Placement new of an `unexpected<E>`, moving from the error of object `j`. Placement new as in
expected.h:632-636. -/
def newErrMove (i j : Nat) : M T E Unit := do
  let e ← err j
  fresh i
  LM.elemIf tr.eMove (fun s => setCell (setCell s i (.err e)) j (.err (mvE e)))
    (fun l s => setCell s j (.err l.2))

/-- Assignment of `t` to the value of object `i`. `get() = rhs.get()` and `val() = v`,
expected.h:643-695 and 1554-1717. -/
def valAssign (nothrow : Bool) (i : Nat) (t : T) : M T E Unit := do
  let _ ← val i
  LM.elemIf nothrow (fun s => setCell s i (.val t)) (fun l s => setCell s i (.val l.1))

/-- Move assignment of the value of object `j` to that of object `i`. `get() = std::move(rhs.get())`,
expected.h:700-757. -/
def valAssignMove (i j : Nat) : M T E Unit := do
  let _ ← val i
  let t ← val j
  LM.elemIf tr.tMoveAssign (fun s => setCell (setCell s i (.val t)) j (.val (mvT t)))
    (fun l s => setCell (setCell s i (.val l.1)) j (.val l.1))

/-- Assignment of `e` to the error of object `i`. `geterr() = rhs.geterr()`, expected.h:709-775. -/
def errAssign (nothrow : Bool) (i : Nat) (e : E) : M T E Unit := do
  let _ ← err i
  LM.elemIf nothrow (fun s => setCell s i (.err e)) (fun l s => setCell s i (.err l.2))

/-- Move assignment of the error of object `j` to that of object `i`. `geterr() =
std::move(rhs.geterr())`, expected.h:709-775. -/
def errAssignMove (i j : Nat) : M T E Unit := do
  let _ ← err i
  let e ← err j
  LM.elemIf tr.eMoveAssign (fun s => setCell (setCell s i (.err e)) j (.err (mvE e)))
    (fun l s => setCell (setCell s i (.err l.2)) j (.err l.2))

/-- auto tmp = std::move(val()) expected.h:1760, 1771. -/
def takeVal (i : Nat) : M T E T := do
  let t ← val i
  LM.elemIf tr.tMove (fun s => setCell s i (.val (mvT t))) (fun l s => setCell s i (.val l.1))
  return t

/-- auto tmp = std::move(err()) expected.h:1600, 1669, 1709, 1794. -/
def takeErr (i : Nat) : M T E E := do
  let e ← err i
  LM.elemIf tr.eMove (fun s => setCell s i (.err (mvE e))) (fun l s => setCell s i (.err l.2))
  return e

/-- A temporary of type `T` on the stack. expected.h:1692, 1706. -/
def tmpVal (nothrow : Bool) (t : T) : M T E T := do
  LM.elemIf nothrow id (fun _ s => s)
  return t

/-- The storage of a new object: no_init, expected.h:372. -/
def born (i : Nat) : M T E Unit := put i ⟨false, .raw⟩

/-- ~expected_storage_base(), expected.h:400-406, and end of the lifetime. -/
def dtor (i : Nat) : M T E Unit := do
  if ← has i then destroyVal i else destroyErr i
  LM.setState (Store.set (← LM.getState) i none)

/-- The default, in-place and value constructors, expected.h:371-385, 1417, 1423-1435, 1546-1558.  If
the constructor of the element throws there is no object. -/
def ctorVal (i : Nat) (t : T) : M T E Unit :=
  LM.elemIf tr.tFrom (fun s => s.set i (some ⟨true, .val t⟩)) (fun _ s => s)

/-- The constructors from unexpected and unexpect_t, expected.h:386-398, 1437-1486. -/
def ctorErr (i : Nat) (e : E) : M T E Unit :=
  LM.elemIf tr.eCopy (fun s => s.set i (some ⟨false, .err e⟩)) (fun _ s => s)

/-- construct() and construct_with() with a copy, expected.h:622-630 (noexcept). -/
def construct (nothrow : Bool) (i : Nat) (t : T) : M T E Unit := LM.noexcept do
  newVal nothrow i t
  setHas i true

/-- construct() and construct_with() with the moved value of object `j`. expected.h:622-630. -/
def constructMove (i j : Nat) : M T E Unit := LM.noexcept do
  newValMove tr mvT i j
  setHas i true

/-- construct_error() with a copy, expected.h:632-636 (noexcept). -/
def constructError (nothrow : Bool) (i : Nat) (e : E) : M T E Unit := LM.noexcept do
  newErr nothrow i e
  setHas i false

/-- construct_error() with the moved error of object `j`. expected.h:632-636. -/
def constructErrorMove (i j : Nat) : M T E Unit := LM.noexcept do
  newErrMove tr mvE i j
  setHas i false

/-- The copy constructor, expected.h:861-873. -/
def ctorCopy (i j : Nat) : M T E Unit := do
  born i
  if ← has j then construct tr.tCopy i (← val j)
  else constructError tr.eCopy i (← err j)

/-- The move constructor, expected.h:895-903. -/
def ctorMove (i j : Nat) : M T E Unit := do
  born i
  if ← has j then constructMove tr mvT i j
  else constructErrorMove tr mvE i j

/-- The converting constructors from expected<U, G>, expected.h:1488-1544: the base class is
default-initialised, which creates a value (expected.h:371), before construct() or
construct_error().  `d` is the default value, `c` the converted content of the source. -/
def ctorConvert (i : Nat) (d : T) (c : Except E T) : M T E Unit := do
  ctorVal tr i d
  match c with
  | .ok t => construct tr.tFrom i t
  | .error e => constructError tr.eCopy i e

/-- assign_common() for a copy, expected.h:762-775. -/
def assignCommonCopy (i j : Nat) : M T E Unit := do
  if ← has i then
    if ← has j then valAssign tr.tAssign i (← val j)
    else do
      destroyVal i
      constructError tr.eCopy i (← err j)
  else
    if ← has j then pure ()
    else errAssign tr.eAssign i (← err j)

/-- assign_common() for a move, expected.h:762-775. -/
def assignCommonMove (i j : Nat) : M T E Unit := do
  if ← has i then
    if ← has j then valAssignMove tr mvT i j
    else do
      destroyVal i
      constructErrorMove tr mvE i j
  else
    if ← has j then pure ()
    else errAssignMove tr mvE i j

/-- Copy assignment, expected.h:646-707, 929-932: three overloads of assign(). -/
def assignCopy (i j : Nat) : M T E Unit := do
  if tr.tCopy then LM.noexcept do
    if !(← has i) && (← has j) then
      destroyErr i
      construct tr.tCopy i (← val j)
    else assignCommonCopy tr i j
  else if tr.tMove then LM.noexcept do
    if !(← has i) && (← has j) then
      let tmp ← tmpVal tr.tCopy (← val j)
      destroyErr i
      construct tr.tMove i tmp
    else assignCommonCopy tr i j
  else
    if !(← has i) && (← has j) then
      let tmp ← takeErr tr mvE i
      destroyErr i
      LM.onThrow (do construct tr.tCopy i (← val j)) (errAssign tr.eMoveAssign i tmp)
    else assignCommonCopy tr i j

/-- Move assignment, expected.h:709-743, 963-969: two overloads of assign(). -/
def assignMove (i j : Nat) : M T E Unit :=
  if tr.tMove then LM.noexcept do
    if !(← has i) && (← has j) then
      destroyErr i
      constructMove tr mvT i j
    else assignCommonMove tr mvT mvE i j
  else do
    if !(← has i) && (← has j) then
      let tmp ← takeErr tr mvE i
      destroyErr i
      LM.onThrow (constructMove tr mvT i j) (errAssign tr.eMoveAssign i tmp)
    else assignCommonMove tr mvT mvE i j

/-- operator=(U&&), expected.h:1572-1582 and 1596-1618. -/
def assignVal (i : Nat) (t : T) : M T E Unit := do
  if ← has i then valAssign tr.tAssignFrom i t
  else if tr.tFrom then do
    destroyErr i
    newVal tr.tFrom i t
    setHas i true
  else do
    let tmp ← takeErr tr mvE i
    destroyErr i
    LM.onThrow (do newVal tr.tFrom i t; setHas i true) (errAssign tr.eMoveAssign i tmp)

/-- operator=(const unexpected<G>&), expected.h:1623-1633. -/
def assignErr (i : Nat) (e : E) : M T E Unit := do
  if !(← has i) then errAssign tr.eAssign i e
  else
    destroyVal i
    newErr tr.eCopy i e
    setHas i false

/-- operator=(unexpected<G>&&), expected.h:1638-1648 (noexcept). -/
def assignErrMove (i : Nat) (e : E) : M T E Unit := LM.noexcept do
  if !(← has i) then errAssign tr.eMoveAssign i e
  else
    destroyVal i
    newErr tr.eMove i e
    setHas i false

/-- emplace(args), expected.h:1650-1685. -/
def emplace (i : Nat) (t : T) : M T E Unit := do
  if tr.tFrom then
    if ← has i then destroyVal i
    else
      destroyErr i
      setHas i true
    newVal tr.tFrom i t
  else
    if ← has i then
      destroyVal i
      newVal tr.tFrom i t
    else
      let tmp ← takeErr tr mvE i
      destroyErr i
      LM.onThrow (do newVal tr.tFrom i t; setHas i true) (errAssign tr.eMoveAssign i tmp)

/-- emplace(initializer_list, args), expected.h:1687-1725. -/
def emplaceList (i : Nat) (t : T) : M T E Unit := do
  if ← has i then
    let tmp ← tmpVal tr.tFrom t
    valAssign tr.tMoveAssign i tmp
  else if tr.tFrom then
    destroyErr i
    newVal tr.tFrom i t
    setHas i true
  else
    let tmp ← takeErr tr mvE i
    destroyErr i
    LM.onThrow (do newVal tr.tFrom i t; setHas i true) (errAssign tr.eMoveAssign i tmp)

/-- std::swap(m_has_val, rhs.m_has_val) expected.h:1748, 1765, 1778, 1801. -/
def swapHas (i j : Nat) : M T E Unit := do
  let a ← has i
  let b ← has j
  setHas i b
  setHas j a

/-- swap_where_both_have_value, expected.h:1739-1742: std::swap of the values. -/
def swapVals (i j : Nat) : M T E Unit := do
  let tmp ← takeVal tr mvT i
  valAssignMove tr mvT i j
  valAssign tr.tMoveAssign j tmp

/-- swap(err(), rhs.err()), expected.h:1831-1834. -/
def swapErrs (i j : Nat) : M T E Unit := do
  let tmp ← takeErr tr mvE i
  errAssignMove tr mvE i j
  errAssign tr.eMoveAssign j tmp

/-- swap_where_only_one_has_value_and_t_is_not_void, expected.h:1757-1812; `i` has a value and `j`
has not. -/
def swapOne (i j : Nat) : M T E Unit := do
  if tr.tMove then
    if tr.eMove then LM.noexcept do
      let tmp ← takeVal tr mvT i
      destroyVal i
      newErrMove tr mvE i j
      destroyErr j
      newVal tr.tMove j tmp
      swapHas i j
    else
      let tmp ← takeVal tr mvT i
      destroyVal i
      LM.onThrow (do
        newErrMove tr mvE i j
        destroyErr j
        newVal tr.tMove j tmp
        swapHas i j) (valAssign tr.tMoveAssign i tmp)
  else
    let tmp ← takeErr tr mvE j
    destroyErr j
    LM.onThrow (do
      newValMove tr mvT j i
      destroyVal i
      newErr tr.eMove i tmp
      swapHas i j) (errAssign tr.eMoveAssign j tmp)

/-- The body of swap(), expected.h:1825-1834. -/
def swapBody (i j : Nat) : M T E Unit := do
  match ← has i, ← has j with
  | true, true => swapVals tr mvT i j
  | false, true => swapOne tr mvT mvE j i
  | true, false => swapOne tr mvT mvE i j
  | false, false => swapErrs tr mvE i j

/-- swap(), expected.h:1814-1835; noexcept if moving and swapping (that is, moving and
move-assigning) both types cannot throw. -/
def swap (i j : Nat) : M T E Unit :=
  if tr.tMove && tr.tMoveAssign && tr.eMove && tr.eMoveAssign then
    LM.noexcept (swapBody tr mvT mvE i j)
  else swapBody tr mvT mvE i j

/-- The constructors, assignments, emplace and swap of expected.h:1273-1810. -/
inductive Op (T E : Type) where
  | ctorVal (i : Nat) (t : T)
  | ctorErr (i : Nat) (e : E)
  | ctorCopy (i j : Nat)
  | ctorMove (i j : Nat)
  | dtor (i : Nat)
  | assignCopy (i j : Nat)
  | assignMove (i j : Nat)
  | assignVal (i : Nat) (t : T)
  | assignErr (i : Nat) (e : E)
  | assignErrMove (i : Nat) (e : E)
  | emplace (i : Nat) (t : T)
  | emplaceList (i : Nat) (t : T)
  | swap (i j : Nat)

/-- The constructors, assignments, emplace and swap of expected.h:1273-1810. -/
def exec : Op T E → M T E Unit
  | .ctorVal i t => ctorVal tr i t
  | .ctorErr i e => ctorErr tr i e
  | .ctorCopy i j => ctorCopy tr i j
  | .ctorMove i j => ctorMove tr mvT mvE i j
  | .dtor i => dtor i
  | .assignCopy i j => assignCopy tr mvE i j
  | .assignMove i j => assignMove tr mvT mvE i j
  | .assignVal i t => assignVal tr mvE i t
  | .assignErr i e => assignErr tr i e
  | .assignErrMove i e => assignErrMove tr i e
  | .emplace i t => emplace tr mvE i t
  | .emplaceList i t => emplaceList tr mvE i t
  | .swap i j => swap tr mvT mvE i j

end Gul14.Exp
