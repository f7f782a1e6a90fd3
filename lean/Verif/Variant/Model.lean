import Verif.Lifetime

/-!
# Model of include/gul14/variant.h: storage, construction, assignment, emplace, swap

A store holds the variant objects that exist.  The values of all alternatives are taken from one
type `V`; what matters is which alternative is alive.  `mv` gives the value of an object after it
has been moved from.  Which overload of an operation is compiled depends on the traits of the
alternatives (`Alt`); an operation that is declared noexcept does not throw.  Arguments from which
an alternative is constructed are values outside of the variant that is modified.
-/
namespace Gul14.Var

/-- enum class Trait, variant.h:364. -/
inductive Trait where
  | trivially
  | available
  | unavailable
  deriving DecidableEq, Repr

/-- The int value of a Trait, as compared in variant.h:381. -/
def Trait.toNat : Trait → Nat
  | .trivially => 0
  | .available => 1
  | .unavailable => 2

/-- common_trait(), variant.h:376-387. -/
def commonTrait (ts : List Trait) : Trait :=
  ts.foldl (fun r t => if t.toNat > r.toNat then t else r) .trivially

/-- Traits of one alternative type: what trait<> (variant.h:366-374) yields for its special member
functions, and which of them are declared noexcept. -/
structure Alt where
  copyC : Trait
  moveC : Trait
  copyA : Trait
  moveA : Trait
  dtor : Trait
  ntCopyC : Bool
  ntMoveC : Bool
  ntCopyA : Bool
  ntMoveA : Bool
  ntSwap : Bool
  deriving DecidableEq, Repr

/-- The list of alternatives, Ts... The type traits that select the bases of variant.h:1116-1346. -/
abbrev Cfg := List Alt

namespace Cfg

/-- traits<Ts...>::copy_constructible_trait, variant.h:391-394. -/
def copyC (c : Cfg) : Trait := commonTrait (c.map Alt.copyC)
/-- move_constructible_trait, variant.h:396-399. -/
def moveC (c : Cfg) : Trait := commonTrait (c.map Alt.moveC)
/-- copy_assignable_trait, variant.h:401-405. -/
def copyA (c : Cfg) : Trait := commonTrait (copyC c :: c.map Alt.copyA)
/-- move_assignable_trait, variant.h:407-411. -/
def moveA (c : Cfg) : Trait := commonTrait (moveC c :: c.map Alt.moveA)
/-- destructible_trait, variant.h:413-416. -/
def dtor (c : Cfg) : Trait := commonTrait (c.map Alt.dtor)

/-- is_nothrow_copy_constructible of alternative `i`. -/
def ntCopyC (c : Cfg) (i : Nat) : Bool := (c[i]?.map Alt.ntCopyC).getD false
/-- is_nothrow_move_constructible of alternative `i`. -/
def ntMoveC (c : Cfg) (i : Nat) : Bool := (c[i]?.map Alt.ntMoveC).getD false
/-- is_nothrow_copy_assignable of alternative `i`. -/
def ntCopyA (c : Cfg) (i : Nat) : Bool := (c[i]?.map Alt.ntCopyA).getD false
/-- is_nothrow_move_assignable of alternative `i`. -/
def ntMoveA (c : Cfg) (i : Nat) : Bool := (c[i]?.map Alt.ntMoveA).getD false
/-- is_nothrow_swappable of alternative `i`. -/
def ntSwap (c : Cfg) (i : Nat) : Bool := (c[i]?.map Alt.ntSwap).getD false

/-- Number of values of index_t<Ts...>, variant.h:982-990. -/
def indexMod (c : Cfg) : Nat :=
  if c.length < 255 then 2 ^ 8 else if c.length < 65535 then 2 ^ 16 else 2 ^ 32

/-- static_cast<index_t<Ts...>>(-1) variant.h:982-990. -/
def noIndex (c : Cfg) : Nat := c.indexMod - 1

end Cfg

/-- class base, variant.h:992-1031: the index, and the alternative that is alive in the union, if
any (recursive_union, 940-972, flattened). -/
structure Obj (V : Type) where
  index : Nat
  mem : Option (Nat × V)
  deriving DecidableEq, Repr

/-- Variants of the program, and the local variable of impl::swap. -/
inductive Loc where
  | obj (k : Nat)
  | tmp
  deriving DecidableEq, Repr

/-- The members index_ and data_ of variant.h:993-1027. -/
abbrev Store (V : Type) := Loc → Option (Obj V)

/-- The members index_ and data_ of variant.h:993-1027. -/
def Store.set {V : Type} (s : Store V) (l : Loc) (o : Option (Obj V)) : Store V :=
  fun k => if k = l then o else s k

/-- Language semantics of the bodies of variant.h:993-1440; no code in /repo of its own. -/
abbrev M (V : Type) := LM V (Store V)

/-- Where an alternative is constructed or assigned from: an outside value (`nt`: constructing from
it does not throw; `nta`: assigning from it does not throw), or the alternative of another variant. -/
inductive Src (V : Type) where
  | val (v : V) (nt nta : Bool)
  | copy (l : Loc)
  | move (l : Loc)

variable {V : Type} (c : Cfg) (mv : V → V)

def get (l : Loc) : M V (Obj V) := fun _ s n =>
  match s l with
  | some o => .ok o s n
  | none => .ub

def put (l : Loc) (o : Obj V) : M V Unit := fun _ s n => .ok () (s.set l (some o)) n

/-- The storage `l` becomes a variant object. -/
def create (l : Loc) (o : Obj V) : M V Unit := fun _ s n =>
  match s l with
  | none => .ok () (s.set l (some o)) n
  | some _ => .ub

/-- The variant object ceases to exist; an alternative that still lives in it would be lost. -/
def release (l : Loc) : M V Unit := fun _ s n =>
  match s l with
  | some ⟨_, none⟩ => .ok () (s.set l none) n
  | _ => .ub

/-- base::valueless_by_exception(), variant.h:1003-1005. -/
def valueless (o : Obj V) : Bool := o.index == c.noIndex

/-- base::index(), variant.h:1007-1009. -/
def index (o : Obj V) : Nat := if valueless c o then npos else o.index

/-- this->index_ = i, with the conversion to index_t. -/
def setIndex (l : Loc) (i : Nat) : M V Unit := do
  put l { (← get l) with index := i % c.indexMod }

/-- dispatcher::dispatch_at, variant.h:455-457, 488-651: the switch over 32 cases starting
with `B`, whose default continues with `B + 32`.  The result is the number of the alternative;
`none` is GUL14_BUILTIN_UNREACHABLE.  `fuel` bounds the depth of the template recursion. -/
def dispatchAt (size : Nat) : Nat → Nat → Nat → Option Nat
  | 0, _, _ => none
  | fuel + 1, B, i =>
    if B ≤ i ∧ i < B + 32 then (if i < size then some i else none)
    else if B + 32 < size then dispatchAt size fuel (B + 32) i
    else none

/-- visit_alt_at, variant.h:801-813: the alternative that is visited for an index. -/
def visitAt (i : Nat) : M V Nat :=
  match dispatchAt c.length (c.length + 1) 0 i with
  | some i => pure i
  | none => LM.error

/-- access::base::get_alt<I>(v).value, variant.h:420-443, read: it has to be alive. -/
def readAlt (l : Loc) (i : Nat) : M V V := do
  match (← get l).mem with
  | some (k, v) => if k = i then pure v else LM.error
  | none => LM.error

def setMem (s : Store V) (l : Loc) (m : Option (Nat × V)) : Store V :=
  match s l with
  | some o => s.set l (some { o with mem := m })
  | none => s

/-- The union holds no live alternative. -/
def fresh (l : Loc) : M V Unit := do
  match (← get l).mem with
  | none => pure ()
  | some _ => LM.error

/-- destructor::destroy(), variant.h:1077-1097.  If all alternatives are trivially destructible, no
destructor is called, but the lifetime of the alternative is over all the same. -/
def destroy (l : Loc) : M V Unit := do
  match c.dtor with
  | .trivially => put l ⟨c.noIndex, none⟩
  | .available =>
    let o ← get l
    if valueless c o then put l { o with index := c.noIndex }
    else do
      let i ← visitAt c (index c o)
      let _ ← readAlt l i
      put l ⟨c.noIndex, none⟩
  | .unavailable => LM.error

/-- construct_alt<I>(a, args...), variant.h:1110-1115; alt<I, T>::alt, 924-930. -/
def constructAlt (l : Loc) (i : Nat) : Src V → M V Unit
  | .val v nt _ => do
    fresh l
    LM.elemIf nt (fun s => setMem s l (some (i, v))) (fun _ s => s)
  | .copy r => do
    let v ← readAlt r i
    fresh l
    LM.elemIf (c.ntCopyC i) (fun s => setMem s l (some (i, v))) (fun _ s => s)
  | .move r => do
    let v ← readAlt r i
    fresh l
    LM.elemIf (c.ntMoveC i) (fun s => setMem (setMem s l (some (i, v))) r (some (i, mv v)))
      (fun x s => setMem s r (some (i, x)))

/-- generic_construct(lhs, rhs), variant.h:1117-1132; `m`: rhs is an rvalue. -/
def genericConstruct (m : Bool) (l r : Loc) : M V Unit := do
  destroy c l
  let o ← get r
  if valueless c o then pure () else do
    let i ← visitAt c (index c o)
    constructAlt c mv l i (if m then .move r else .copy r)
    setIndex c l (← get r).index

/-- The in-place constructors: base(in_place_index_t<I>, args...), variant.h:998-1001, called by the
constructors of variant, 1514-1592. -/
def ctorAt (l : Loc) (i : Nat) (v : V) (nt : Bool) : M V Unit := do
  LM.elemIf nt (fun s => s) (fun _ s => s)
  create l ⟨i % c.indexMod, some (i, v)⟩

/-- ~variant(), variant.h:1077-1097: trivial, or destroy(). -/
def dtor (l : Loc) : M V Unit := do
  match c.dtor with
  | .trivially => do put l { (← get l) with mem := none }; release l
  | .available => do destroy c l; release l
  | .unavailable => LM.error

/-- copy_constructor and move_constructor, variant.h:1159-1165, 1197-1202.  A constructor that
delegates and then throws runs the destructor. -/
def ctorBody (m : Bool) (l r : Loc) : M V Unit := do
  create l ⟨c.noIndex, none⟩
  LM.onThrow (genericConstruct c mv m l r) (dtor c l)

/-- Copy construction of `l` from `r`. variant.h:1197-1202. -/
def ctorCopy (l r : Loc) : M V Unit := do
  match c.copyC with
  | .trivially => do create l (← get r)
  | .available => ctorBody c mv false l r
  | .unavailable => LM.error

/-- Move construction of `l` from `r`. variant.h:1159-1165. -/
def ctorMove (l r : Loc) : M V Unit := do
  match c.moveC with
  | .trivially => do create l (← get r)
  | .available =>
    if c.all Alt.ntMoveC then LM.noexcept (ctorBody c mv true l r) else ctorBody c mv true l r
  | .unavailable => LM.error

/-- assignment::emplace<I>(args...), variant.h:1218-1227. -/
def emplace (l : Loc) (i : Nat) (src : Src V) : M V Unit := do
  destroy c l
  constructAlt c mv l i src
  setIndex c l i

/-- A temporary T(arg), variant.h:1247.  Its value is returned. -/
def temporary (i : Nat) : Src V → M V V
  | .val v nt _ => do
    LM.elemIf nt (fun s => s) (fun _ s => s)
    pure v
  | .copy r => do
    let v ← readAlt r i
    LM.elemIf (c.ntCopyC i) (fun s => s) (fun _ s => s)
    pure v
  | .move r => do
    let v ← readAlt r i
    LM.elemIf (c.ntMoveC i) (fun s => setMem s r (some (i, mv v))) (fun x s => setMem s r (some (i, x)))
    pure v

/-- std::is_nothrow_constructible<T, Arg>::value, variant.h:1253. -/
def ntConstructible (i : Nat) : Src V → Bool
  | .val _ nt _ => nt
  | .copy _ => c.ntCopyC i
  | .move _ => c.ntMoveC i

/-- a.value = std::forward<Arg>(arg), variant.h:1237. -/
def assignValue (l : Loc) (i : Nat) : Src V → M V Unit
  | .val v _ nta => do
    let _ ← readAlt l i
    LM.elemIf nta (fun s => setMem s l (some (i, v))) (fun x s => setMem s l (some (i, x)))
  | .copy r => do
    let _ ← readAlt l i
    let v ← readAlt r i
    LM.elemIf (c.ntCopyA i) (fun s => setMem s l (some (i, v))) (fun x s => setMem s l (some (i, x)))
  | .move r => do
    let _ ← readAlt l i
    let v ← readAlt r i
    LM.elemIf (c.ntMoveA i) (fun s => setMem (setMem s l (some (i, v))) r (some (i, mv v)))
      (fun x s => setMem (setMem s l (some (i, x))) r (some (i, x)))

/-- assign_alt<I>(a, arg), variant.h:1230-1256. -/
def assignAlt (l : Loc) (i : Nat) (src : Src V) : M V Unit := do
  let o ← get l
  if index c o = i then assignValue c mv l i src
  else if ntConstructible c i src || !c.ntMoveC i then emplace c mv l i src
  else do
    let v ← temporary c mv i src
    emplace c mv l i (.val v (c.ntMoveC i) false)

/-- generic_assign(that), variant.h:1258-1274. -/
def genericAssign (m : Bool) (l r : Loc) : M V Unit := do
  let a ← get l
  let b ← get r
  if valueless c a && valueless c b then pure ()
  else if valueless c b then destroy c l
  else do
    let i ← visitAt c (index c b)
    assignAlt c mv l i (if m then .move r else .copy r)

/-- Copy assignment, variant.h:1337-1350. -/
def assignCopy (l r : Loc) : M V Unit := do
  match c.copyA with
  | .trivially => do let _ ← get l; put l (← get r)
  | .available => genericAssign c mv false l r
  | .unavailable => LM.error

/-- Move assignment, variant.h:1297-1311. -/
def assignMove (l r : Loc) : M V Unit := do
  match c.moveA with
  | .trivially => do let _ ← get l; put l (← get r)
  | .available =>
    if c.all fun a => a.ntMoveC && a.ntMoveA then LM.noexcept (genericAssign c mv true l r)
    else genericAssign c mv true l r
  | .unavailable => LM.error

/-- variant::operator=(Arg&&), variant.h:1599-1612, with `I` the best match. -/
def assignVal (l : Loc) (i : Nat) (v : V) (nt nta : Bool) : M V Unit :=
  if nta && nt then LM.noexcept (assignAlt c mv l i (.val v nt nta))
  else assignAlt c mv l i (.val v nt nta)

/-- variant::emplace, variant.h:1614-1656. -/
def emplaceVal (l : Loc) (i : Nat) (v : V) (nt : Bool) : M V Unit :=
  emplace c mv l i (.val v nt false)

/-- move_nothrow(), variant.h:1409-1414. -/
def moveNothrow (l : Loc) : M V Bool := do
  let o ← get l
  if valueless c o then pure true
  else match c[index c o]? with
    | some a => pure a.ntMoveC
    | none => LM.error

/-- swap(this_alt.value, that_alt.value), variant.h:1378-1385. -/
def swapValues (i : Nat) (l r : Loc) : M V Unit := do
  let v ← readAlt l i
  let u ← readAlt r i
  LM.elemIf (c.ntSwap i) (fun s => setMem (setMem s l (some (i, u))) r (some (i, v)))
    (fun x s => setMem (setMem s l (some (i, x))) r (some (i, x)))

/-- The life of the local variable `tmp`, variant.h:1392-1404. -/
def swapTmp (l r : Loc) : M V Unit := do
  ctorMove c mv .tmp r
  LM.onThrow (do
      LM.onThrow (genericConstruct c mv true r l) (do
        if ← moveNothrow c .tmp then genericConstruct c mv true r .tmp else pure ())
      genericConstruct c mv true l .tmp)
    (dtor c .tmp)
  dtor c .tmp

/-- impl::swap(that), variant.h:1374-1406. -/
def swapBody (l r : Loc) : M V Unit := do
  let a ← get l
  let b ← get r
  if valueless c a && valueless c b then pure ()
  else if index c a = index c b then do
    let i ← visitAt c (index c a)
    swapValues c i l r
  else do
    let nl ← moveNothrow c l
    let nr ← moveNothrow c r
    if nl && !nr then swapTmp c mv r l else swapTmp c mv l r

/-- variant::swap, variant.h:1668-1679. -/
def swap (l r : Loc) : M V Unit :=
  if c.all fun a => a.ntMoveC && a.ntSwap then LM.noexcept (swapBody c mv l r)
  else swapBody c mv l r

/-- The operations of a program on its variants. The constructors, assignments, emplace and swap of
variant.h:1116-1700. -/
inductive Op (V : Type) where
  | ctorAt (k i : Nat) (v : V) (nt : Bool)
  | ctorCopy (k j : Nat)
  | ctorMove (k j : Nat)
  | dtor (k : Nat)
  | assignCopy (k j : Nat)
  | assignMove (k j : Nat)
  | assignVal (k i : Nat) (v : V) (nt nta : Bool)
  | emplace (k i : Nat) (v : V) (nt : Bool)
  | swap (k j : Nat)

/-- The constructors, assignments, emplace and swap of variant.h:1116-1700. -/
def exec : Op V → M V Unit
  | .ctorAt k i v nt => ctorAt c (.obj k) i v nt
  | .ctorCopy k j => ctorCopy c mv (.obj k) (.obj j)
  | .ctorMove k j => ctorMove c mv (.obj k) (.obj j)
  | .dtor k => dtor c (.obj k)
  | .assignCopy k j => assignCopy c mv (.obj k) (.obj j)
  | .assignMove k j => assignMove c mv (.obj k) (.obj j)
  | .assignVal k i v nt nta => assignVal c mv (.obj k) i v nt nta
  | .emplace k i v nt => emplaceVal c mv (.obj k) i v nt
  | .swap k j => swap c mv (.obj k) (.obj j)

end Gul14.Var
