import Verif.Lifetime

/-!
# Model of include/gul14/optional.h

A store holds the optionals that currently exist, by number.  `mv v` is the value that an object of
value `v` has after it has been moved from.  Assertions are enabled.
-/
namespace Gul14.Opt

/-- optional_base, optional.h:201-227 (constexpr_optional_base, 229-252, has the same members; its
trivial destructor is that of a trivially destructible element). -/
structure Opt (V : Type) where
  init : Bool
  cell : Cell V
  deriving DecidableEq, Repr

/-- The existing optionals. The members init_ and storage_, optional.h:201-252. -/
abbrev Store (V : Type) := Nat → Option (Opt V)

/-- The members init_ and storage_, optional.h:201-252. -/
def Store.set {V : Type} (s : Store V) (i : Nat) (o : Option (Opt V)) : Store V :=
  fun k => if k = i then o else s k

variable {V : Type} (mv : V → V)

/-- Language semantics of the bodies of optional.h:303-427; no code in /repo of its own. -/
abbrev M (V : Type) := LM V (Store V)

/-- Access to an optional that exists. -/
def get (i : Nat) : M V (Opt V) := fun _ s n =>
  match s i with
  | some o => .ok o s n
  | none => .ub

def put (i : Nat) (o : Opt V) : M V Unit := fun _ s n => .ok () (s.set i (some o)) n

/-- The contained object of optional `i`; it has to be alive. -/
def contained (i : Nat) : M V V := do
  match (← get i).cell with
  | .live v => pure v
  | .raw => LM.error

/-- Changes the value of the contained object of optional `i` in the store. -/
def setCell (s : Store V) (i : Nat) (v : V) : Store V :=
  match s i with
  | some o => s.set i (some { o with cell := .live v })
  | none => s

/-- Placement new of a copy of `v` into the storage of optional `i`. -/
def newCopy (i : Nat) (v : V) : M V Unit := do
  match (← get i).cell with
  | .live _ => LM.error
  | .raw => LM.elem (fun s => setCell s i v) (fun _ s => s)

/-- Placement new into the storage of optional `i`, moving from the object contained in `j`.  A
throwing move constructor may have modified its source. -/
def newMove (i j : Nat) : M V Unit := do
  let v ← contained j
  match (← get i).cell with
  | .live _ => LM.error
  | .raw => LM.elem (fun s => setCell (setCell s i v) j (mv v)) (fun l s => setCell s j l)

/-- Copy assignment of `v` to the object contained in `i`. -/
def valCopy (i : Nat) (v : V) : M V Unit := do
  let _ ← contained i
  LM.elem (fun s => setCell s i v) (fun l s => setCell s i l)

/-- Move assignment from the object contained in `j` to that in `i`. -/
def valMove (i j : Nat) : M V Unit := do
  let _ ← contained i
  let v ← contained j
  LM.elem (fun s => setCell (setCell s i v) j (mv v)) (fun l s => setCell (setCell s i l) j l)

/-- initialized(), optional.h:279-281, has_value() and operator bool, 431-437. -/
def initialized (i : Nat) : M V Bool := do return (← get i).init

/-- clear(), optional.h:303-306. -/
def clear (i : Nat) : M V Unit := do
  if ← initialized i then
    match (← get i).cell with
    | .live _ => put i { (← get i) with cell := .raw }
    | .raw => LM.error
  put i { (← get i) with init := false }

/-- operator*, optional.h:448-460: asserts that there is a value. -/
def deref (i : Nat) : M V V := do
  LM.assert (← initialized i)
  contained i

def setInit (i : Nat) : M V Unit := do put i { (← get i) with init := true }

/-- initialize() from a value, optional.h:308-320. -/
def initCopy (i : Nat) (v : V) : M V Unit := do
  LM.assert (!(← initialized i))
  newCopy i v
  setInit i

/-- initialize(std::move(*o_j)), optional.h:308-313. -/
def initMove (i j : Nat) : M V Unit := do
  LM.assert (!(← initialized i))
  newMove mv i j
  setInit i

/-- Begin of the lifetime of an optional: the base class is constructed without a value. -/
def born (i : Nat) : M V Unit := put i ⟨false, .raw⟩

/-- ~optional_base(), optional.h:224-226, and end of the lifetime. -/
def dtor (i : Nat) : M V Unit := do
  let o ← get i
  match o.init, o.cell with
  | true, .raw => LM.error
  | _, _ => LM.setState (Store.set (← LM.getState) i none)

/-- optional(), optional(nullopt), optional.h:327-331. -/
def ctorEmpty (i : Nat) : M V Unit := born i

/-- optional(const optional&), optional.h:333-339.  If the element constructor throws, the base
class is destroyed. -/
def ctorCopy (i j : Nat) : M V Unit := do
  born i
  LM.onThrow (do
    if ← initialized j then
      newCopy i (← deref j)
      setInit i) (dtor i)

/-- optional(optional&&), optional.h:341-347. -/
def ctorMove (i j : Nat) : M V Unit := do
  born i
  LM.onThrow (do
    if ← initialized j then
      newMove mv i j
      setInit i) (dtor i)

/-- optional(const T&), optional(T&&) and the in-place constructors, optional.h:349-361: the base
class is constructed with the value; if that throws there is no object. -/
def ctorValue (i : Nat) (v : V) : M V Unit :=
  LM.elem (fun s => s.set i (some ⟨true, .live v⟩)) (fun _ s => s)

/-- operator=(nullopt_t), optional.h:370-373; reset(), 496-498. -/
def assignNull (i : Nat) : M V Unit := clear i

/-- operator=(const optional&), optional.h:375-380. -/
def assignCopy (i j : Nat) : M V Unit := do
  match ← initialized i, ← initialized j with
  | true, false => clear i
  | false, true => initCopy i (← deref j)
  | true, true => valCopy i (← deref j)
  | false, false => pure ()

/-- operator=(optional&&), optional.h:382-388. -/
def assignMove (i j : Nat) : M V Unit := do
  match ← initialized i, ← initialized j with
  | true, false => clear i
  | false, true => initMove mv i j
  | true, true => valMove mv i j
  | false, false => pure ()

/-- operator=(U&&) from a value, optional.h:390-399. -/
def assignValue (i : Nat) (v : V) : M V Unit := do
  if ← initialized i then valCopy i v else initCopy i v

/-- emplace(), optional.h:401-411, from an argument that does not refer to the old value. -/
def emplace (i : Nat) (v : V) : M V Unit := do
  clear i
  initCopy i v

/-- std::swap of the two contained objects: a temporary is move-constructed from the first, the
first is move-assigned from the second, the second from the temporary. -/
def valSwap (i j : Nat) : M V Unit := do
  let t ← contained i
  LM.elem (fun s => setCell s i (mv t)) (fun l s => setCell s i l)
  valMove mv i j
  let _ ← contained j
  LM.elem (fun s => setCell s j t) (fun l s => setCell s j l)

/-- swap(), optional.h:415-427 and 869-872. -/
def swap (i j : Nat) : M V Unit := do
  match ← initialized i, ← initialized j with
  | true, false => do initMove mv j i; clear i
  | false, true => do initMove mv i j; clear j
  | true, true => valSwap mv i j
  | false, false => pure ()

/-- value(), optional.h:462-474: bad_optional_access if there is none. -/
def value (i : Nat) : M V V := do
  if ← initialized i then contained i else LM.raise

/-- value_or(v), optional.h:481-484. -/
def valueOr (i : Nat) (v : V) : M V V := do
  if ← initialized i then deref i else pure v

/-- The modelled operations. The constructors, assignments, emplace, swap and destructor of
optional.h:201-427. -/
inductive Op (V : Type) where
  | ctorEmpty (i : Nat)
  | ctorCopy (i j : Nat)
  | ctorMove (i j : Nat)
  | ctorValue (i : Nat) (v : V)
  | dtor (i : Nat)
  | assignNull (i : Nat)
  | assignCopy (i j : Nat)
  | assignMove (i j : Nat)
  | assignValue (i : Nat) (v : V)
  | emplace (i : Nat) (v : V)
  | swap (i j : Nat)

/-- The constructors, assignments, emplace, swap and destructor of optional.h:201-427. -/
def exec : Op V → M V Unit
  | .ctorEmpty i => ctorEmpty i
  | .ctorCopy i j => ctorCopy i j
  | .ctorMove i j => ctorMove mv i j
  | .ctorValue i v => ctorValue i v
  | .dtor i => dtor i
  | .assignNull i => assignNull i
  | .assignCopy i j => assignCopy i j
  | .assignMove i j => assignMove mv i j
  | .assignValue i v => assignValue i v
  | .emplace i v => emplace i v
  | .swap i j => swap mv i j

end Gul14.Opt
