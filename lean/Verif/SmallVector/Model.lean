import Verif.Lifetime

/-!
# SmallVector, include/gul14/SmallVector.h

The memory consists of blocks of cells: the internal array of each vector and the blocks allocated
on the heap.  A cell is raw or holds a live element.  Vectors are numbered variables; a vector has
the data members of the class.  Reading, assigning to or destroying a cell that is not alive,
constructing over a live element, accessing a cell outside a block, freeing a block that is not
allocated or that still contains live elements, and ending the life of a vector while its internal
array contains live elements are errors (`ub`).

Every element operation and every allocation can throw (see Verif/Lifetime.lean).
-/
namespace Gul14.SmallVector
open LM hiding pure bind

/-- numeric_limits<SizeType>::max() + 1, SizeType = uint32_t (SmallVector.h:277). -/
def sizeLim : Nat := 2 ^ 32

/-- Memory blocks: the internal array of vector `i`, or a heap block. The internal array and the arrays
from make_unique, SmallVector.h:1077, 1169. -/
inductive Blk where
  | inner (i : Nat)
  | heap (k : Nat)
  deriving DecidableEq, Repr

/-- A block: number of cells, and the cells. The internal array and the arrays from make_unique,
SmallVector.h:1077, 1169. -/
structure Block (V : Type) where
  len : Nat
  cell : Nat → Cell V

/-- data_ptr_, capacity_ and size_, SmallVector.h:1224-1230. -/
structure Vec where
  data : Blk
  cap : Nat
  size : Nat
  deriving DecidableEq, Repr

/-- The whole state: the blocks that exist, the number of the next heap block, the vectors that exist.
All objects and arrays that the members of SmallVector.h:317-1640 work on. -/
structure St (V : Type) where
  mem : Blk → Option (Block V)
  nxt : Nat
  vec : Nat → Option Vec

/-- Properties of the element type: which operations are noexcept, whether it is copyable, what a
moved-from element contains, the value-initialized element; and the internal capacity. The type traits
that the noexcept specifications and branches of SmallVector.h:317-1640 depend on. -/
structure Traits (V : Type) where
  nothrowMove : Bool
  nothrowCopy : Bool
  nothrowMoveAssign : Bool
  nothrowCopyAssign : Bool
  copyable : Bool
  moved : V → V
  dflt : V
  inCap : Nat

/-- A function argument of type `const ValueType&` or `ValueType&&`: an object outside all vectors,
or an element. -/
inductive Src (V : Type) where
  | val (v : V)
  | at (b : Blk) (i : Nat)

variable {V : Type}

/-- Language semantics of the bodies of SmallVector.h:317-1640; no code in /repo of its own. -/
abbrev M (V : Type) := LM V (St V)

def upd {α : Type} (f : Nat → α) (i : Nat) (a : α) : Nat → α := fun k => if k = i then a else f k

def St.setMem (s : St V) (b : Blk) (x : Option (Block V)) : St V :=
  { s with mem := fun k => if k = b then x else s.mem k }

def St.setVec (s : St V) (i : Nat) (v : Option Vec) : St V := { s with vec := upd s.vec i v }

/-- Overwrites a cell. -/
def St.put (s : St V) (b : Blk) (i : Nat) (c : Cell V) : St V :=
  match s.mem b with
  | some x => s.setMem b (some ⟨x.len, upd x.cell i c⟩)
  | none => s

/-! ### element operations -/

/-- Reads an element. -/
def getCell (b : Blk) (i : Nat) : M V V := fun _ s n =>
  match s.mem b with
  | some x => if i < x.len then
      match x.cell i with
      | .live v => .ok v s n
      | .raw => .ub
    else .ub
  | none => .ub

/-- Reads an argument. -/
def Src.get : Src V → M V V
  | .val v => pure v
  | .at b i => getCell b i

/-- Changes the object an argument refers to (objects outside the vectors are of no interest). -/
def Src.set (s : St V) (src : Src V) (v : V) : St V :=
  match src with
  | .val _ => s
  | .at b i => s.put b i (.live v)

/-- The cell exists and is raw (precondition of placement new). -/
def checkRaw (b : Blk) (i : Nat) : M V Unit := fun _ s n =>
  match s.mem b with
  | some x => if i < x.len then
      match x.cell i with
      | .raw => .ok () s n
      | .live _ => .ub
    else .ub
  | none => .ub

/-- Placement new of a given value. Placement new, SmallVector.h:332, 677, 1020, 1279, 1365. -/
def construct (nothrow : Bool) (b : Blk) (i : Nat) (v : V) : M V Unit := do
  checkRaw b i
  elemIf nothrow (fun s => s.put b i (.live v)) (fun _ s => s)

/-- `::new(p) ValueType(value)` Placement new with a copy, SmallVector.h:1020, 1254, 1279. -/
def copyConstruct (t : Traits V) (src : Src V) (b : Blk) (i : Nat) : M V Unit := do
  let v ← src.get
  construct t.nothrowCopy b i v

/-- `::new(p) ValueType(std::move(value))` Placement new with a move, SmallVector.h:1038, 1419, 1465,
1584, 1611. -/
def moveConstruct (t : Traits V) (src : Src V) (b : Blk) (i : Nat) : M V Unit := do
  let v ← src.get
  checkRaw b i
  elemIf t.nothrowMove (fun s => (src.set s (t.moved v)).put b i (.live v))
    (fun left s => src.set s left)

/-- `*p = value` Assignment to an element, SmallVector.h:820, 862. -/
def copyAssignElem (t : Traits V) (src : Src V) (b : Blk) (i : Nat) : M V Unit := do
  let v ← src.get
  let _ ← getCell b i
  elemIf t.nothrowCopyAssign (fun s => s.put b i (.live v)) (fun left s => s.put b i (.live left))

/-- `*p = std::move(value)`. Assigning an element to itself leaves a moved-from value. Assignment to an
element, SmallVector.h:741, 1421, 1468. -/
def moveAssignElem (t : Traits V) (src : Src V) (b : Blk) (i : Nat) : M V Unit := do
  let v ← src.get
  let _ ← getCell b i
  elemIf t.nothrowMoveAssign (fun s => src.set (s.put b i (.live v)) (t.moved v))
    (fun left s => src.set (s.put b i (.live left)) left)

/-- `p->~ValueType()` SmallVector.h:1003, 1261, 1305, 1592. -/
def destroyElem (b : Blk) (i : Nat) : M V Unit := do
  let _ ← getCell b i
  let s ← getState
  setState (s.put b i .raw)

/-! ### blocks and vectors -/

/-- make_unique<AlignedStorage[]>(n) std::make_unique, SmallVector.h:1077, 1169. -/
def alloc (len : Nat) : M V Blk := fun w s n =>
  if w.at? = some n then .throw s (n + 1)
  else .ok (.heap s.nxt)
    { s.setMem (.heap s.nxt) (some ⟨len, fun _ => .raw⟩) with nxt := s.nxt + 1 } (n + 1)

/-- All cells of the block are raw. -/
def Block.allRaw (x : Block V) : Bool :=
  (List.range x.len).all fun i => match x.cell i with
    | .raw => true
    | .live _ => false

/-- delete[]. delete[], SmallVector.h:426, 942, 1085, 1179. -/
def free (b : Blk) : M V Unit := fun _ s n =>
  match b, s.mem b with
  | .heap _, some x => if x.allRaw then .ok () (s.setMem b none) n else .ub
  | _, _ => .ub

def getVec (i : Nat) : M V Vec := fun _ s n =>
  match s.vec i with
  | some v => .ok v s n
  | none => .ub

def setVec (i : Nat) (v : Vec) : M V Unit := fun _ s n => .ok () (s.setVec i (some v)) n

/-- A new vector object: the default member initializers, SmallVector.h:1221-1230. -/
def newVec (t : Traits V) (i : Nat) : M V Unit := fun _ s n =>
  match s.vec i with
  | some _ => .ub
  | none => .ok () ((s.setMem (.inner i) (some ⟨t.inCap, fun _ => .raw⟩)).setVec i
      (some ⟨.inner i, t.inCap, 0⟩)) n

/-- The vector object ceases to exist (its members have no destructors). -/
def dropVec (i : Nat) : M V Unit := fun _ s n =>
  match s.vec i, s.mem (.inner i) with
  | some _, some x =>
      if x.allRaw then .ok () ((s.setMem (.inner i) none).setVec i none) n else .ub
  | _, _ => .ub

/-- is_storage_allocated, SmallVector.h:1430-1433. -/
def allocated (i : Nat) (v : Vec) : Bool := v.data ≠ .inner i

/-! ### loops -/

/-- destroy_range, SmallVector.h:1302-1306: `cnt` elements from index `i` of block `b`. -/
def destroyRange (b : Blk) : Nat → Nat → M V Unit
  | _, 0 => pure ()
  | i, cnt + 1 => do
      destroyElem b i
      destroyRange b (i + 1) cnt

/-- Constructs `cnt` elements in block `b`, the k-th one by `mk k`, beginning with k = `k`; if
this throws, the elements constructed so far (k of them, from index `d` on) are destroyed.  This is
the loop of uninitialized_move (SmallVector.h:1575-1596), copy_range_into_uninitialized_cells
(1245-1265), fill_uninitialized_cells_with_default_constructed_elements (1355-1372) and
std::uninitialized_copy. -/
def buildOrUndo (mk : Nat → M V Unit) (b : Blk) (d : Nat) : Nat → Nat → M V Unit
  | _, 0 => pure ()
  | k, cnt + 1 => do
      onThrow (mk k) (destroyRange b d k)
      buildOrUndo mk b d (k + 1) cnt

/-- The same without cleaning up: copy_value_into_uninitialized_cells (SmallVector.h:1273-1280), the
loop of SmallVector(n) (323-324), and that of make_space_at_idx_for_n_elements (1464-1465). -/
def build (mk : Nat → M V Unit) : Nat → Nat → M V Unit
  | _, 0 => pure ()
  | k, cnt + 1 => do
      mk k
      build mk (k + 1) cnt

/-- uninitialized_move_or_copy, SmallVector.h:1617-1644: moves elements of types with a noexcept
move constructor and of types that cannot be copied, copies all others. -/
def uninitMoveOrCopy (t : Traits V) (sb : Blk) (si : Nat) (db : Blk) (di : Nat) (cnt : Nat) :
    M V Unit :=
  if t.nothrowMove then build (fun k => moveConstruct t (.at sb (si + k)) db (di + k)) 0 cnt
  else if t.copyable then
    buildOrUndo (fun k => copyConstruct t (.at sb (si + k)) db (di + k)) db di 0 cnt
  else buildOrUndo (fun k => moveConstruct t (.at sb (si + k)) db (di + k)) db di 0 cnt

/-- std::uninitialized_copy from elements of another vector, or (`copyRangeInto`) from a range of
objects outside the vectors. std::uninitialized_copy, SmallVector.h:482, 915, 1633. -/
def uninitCopy (t : Traits V) (sb : Blk) (db : Blk) (cnt : Nat) : M V Unit :=
  buildOrUndo (fun k => copyConstruct t (.at sb k) db k) db 0 0 cnt

/-- copy_range_into_uninitialized_cells, SmallVector.h:1245-1265.  `ValueType{ *it }` (1254) is taken to be a copy: element types with a
constructor from an initializer list that accepts an element itself (a container of std::any, for example) are not modelled. -/
def copyRangeInto (t : Traits V) (b : Blk) (pos : Nat) (xs : List V) : M V Unit :=
  buildOrUndo (fun k => match xs[k]? with
    | some v => copyConstruct t (.val v) b (pos + k)
    | none => error) b pos 0 xs.length

/-- copy_value_into_uninitialized_cells, SmallVector.h:1273-1280. -/
def copyValueInto (t : Traits V) (b : Blk) (pos : Nat) (cnt : Nat) (src : Src V) : M V Unit :=
  build (fun k => copyConstruct t src b (pos + k)) 0 cnt

/-- fill_uninitialized_cells_with_default_constructed_elements, SmallVector.h:1355-1372. -/
def fillDefault (t : Traits V) (b : Blk) (pos : Nat) (cnt : Nat) : M V Unit :=
  buildOrUndo (fun k => construct false b (pos + k) t.dflt) b pos 0 cnt

/-- std::move(first, last, dest) within a block: `cnt` elements from index `i` to index `j`, ascending.
std::move, SmallVector.h:741. -/
def moveForward (t : Traits V) (b : Blk) (i j : Nat) : Nat → M V Unit
  | 0 => pure ()
  | cnt + 1 => do
      moveAssignElem t (.at b i) b j
      moveForward t b (i + 1) (j + 1) cnt

/-- std::move_backward within a block: `cnt` elements from index `i` to index `j`, descending.
std::move_backward, SmallVector.h:1421, 1468. -/
def moveBackward (t : Traits V) (b : Blk) (i j : Nat) : Nat → M V Unit
  | 0 => pure ()
  | cnt + 1 => do
      moveAssignElem t (.at b (i + cnt)) b (j + cnt)
      moveBackward t b i j cnt

/-! ### member functions -/

/-- clear, SmallVector.h:569-573. -/
def clear (i : Nat) : M V Unit := do
  let v ← getVec i
  destroyRange v.data 0 v.size
  setVec i { v with size := 0 }

/-- reserve, SmallVector.h:1072-1089; the new block is freed if moving the elements throws. -/
def reserve (t : Traits V) (i : Nat) (newCap : Nat) : M V Unit := do
  let v ← getVec i
  if newCap ≤ v.cap then pure ()
  else
    let nb ← alloc newCap
    onThrow (uninitMoveOrCopy t v.data 0 nb 0 v.size) (free nb)
    destroyRange v.data 0 v.size
    (if allocated i v then free v.data else pure ())
    setVec i { v with data := nb, cap := newCap }

/-- grow, SmallVector.h:1383-1397; throws length_error at the maximum capacity. -/
def grow (t : Traits V) (i : Nat) : M V Unit := do
  let v ← getVec i
  let remaining := sizeLim - 1 - v.cap
  if remaining = 0 then raise
  else
    let increase := v.cap / 2
    let increase := if increase > remaining then remaining
      else if increase = 0 then 1 else increase
    reserve t i (v.cap + increase)

/-- push_back(const&), SmallVector.h:1015-1023, and (`rvalue`) push_back(&&), 1033-1041. -/
def pushBack (t : Traits V) (rvalue : Bool) (i : Nat) (src : Src V) : M V Unit := do
  let v ← getVec i
  (if v.size = v.cap then grow t i else pure ())
  let v ← getVec i
  (if rvalue then moveConstruct t src v.data v.size else copyConstruct t src v.data v.size)
  setVec i { v with size := v.size + 1 }

/-- emplace_back, SmallVector.h:672-683, with one argument from which the element is constructed. -/
def emplaceBack (t : Traits V) (i : Nat) (src : Src V) : M V Unit := do
  let v ← getVec i
  (if v.size = v.cap then grow t i else pure ())
  let v ← getVec i
  let x ← src.get
  construct false v.data v.size x
  setVec i { v with size := v.size + 1 }

/-- insert_single_value, SmallVector.h:1401-1427, at index `idx`; returns the index of the new
element. -/
def insertSingle (t : Traits V) (rvalue : Bool) (i : Nat) (idx : Nat) (src : Src V) : M V Nat := do
  let v ← getVec i
  if idx = v.size then
    pushBack t rvalue i src
    let v ← getVec i
    pure (v.size - 1)
  else
    (if v.size = v.cap then grow t i else pure ())
    let v ← getVec i
    moveConstruct t (.at v.data (v.size - 1)) v.data v.size
    moveBackward t v.data idx (idx + 1) (v.size - 1 - idx)
    setVec i { v with size := v.size + 1 }
    (if rvalue then moveAssignElem t src v.data idx else copyAssignElem t src v.data idx)
    pure idx

/-- emplace, SmallVector.h:641-652. -/
def emplace (t : Traits V) (i : Nat) (idx : Nat) (src : Src V) : M V Nat := do
  let v ← getVec i
  if idx = v.size then
    emplaceBack t i src
    let v ← getVec i
    pure (v.size - 1)
  else
    let x ← src.get
    elem id (fun _ s => s)
    insertSingle t true i idx (.val x)

/-- make_space_at_idx_for_n_elements, SmallVector.h:1445-1471; the sum of the sizes is computed in
32 bits. -/
def makeSpace (t : Traits V) (i : Nat) (idx n : Nat) : M V Nat := do
  let v ← getVec i
  let newSize := (v.size + n) % sizeLim
  (if newSize > v.cap then reserve t i newSize else pure ())
  let v ← getVec i
  let numShifted := v.size - idx
  let numMoveInit := min numShifted n
  let numMoved := numShifted - numMoveInit
  let fromIdx := v.size - numMoveInit
  let toIdx := fromIdx + n
  build (fun k => moveConstruct t (.at v.data (fromIdx + k)) v.data (toIdx + k)) 0 numMoveInit
  moveBackward t v.data idx (toIdx - numMoved) numMoved
  pure numMoveInit

/-- std::fill_n: assigns `cnt` copies beginning at index `i`. std::fill_n, SmallVector.h:820. -/
def fillN (t : Traits V) (b : Blk) (src : Src V) : Nat → Nat → M V Unit
  | _, 0 => pure ()
  | i, cnt + 1 => do
      copyAssignElem t src b i
      fillN t b src (i + 1) cnt

/-- std::copy_n from a range of objects outside the vectors. std::copy_n, SmallVector.h:862. -/
def copyN (t : Traits V) (b : Blk) : List V → Nat → Nat → M V Unit
  | _, _, 0 => pure ()
  | [], _, _ + 1 => error
  | x :: xs, i, cnt + 1 => do
      copyAssignElem t (.val x) b i
      copyN t b xs (i + 1) cnt

/-- insert(pos, n, value), SmallVector.h:810-828. -/
def insertN (t : Traits V) (i : Nat) (idx n : Nat) (src : Src V) : M V Nat := do
  if n < 1 then pure idx
  else
    let a ← makeSpace t i idx n
    let v ← getVec i
    fillN t v.data src idx a
    copyValueInto t v.data v.size (n - a) src
    setVec i { v with size := (v.size + n) % sizeLim }
    pure idx

/-- insert(pos, first, last), SmallVector.h:851-870, and the initializer list version 885-888. -/
def insertRange (t : Traits V) (i : Nat) (idx : Nat) (xs : List V) : M V Nat := do
  let n := xs.length % sizeLim
  if n < 1 then pure idx
  else
    let a ← makeSpace t i idx n
    let v ← getVec i
    copyN t v.data xs idx a
    copyRangeInto t v.data v.size (xs.drop a)
    setVec i { v with size := (v.size + n) % sizeLim }
    pure idx

/-- erase(first, last), SmallVector.h:735-747, and (last = first + 1) erase(pos), 717-720. -/
def erase (t : Traits V) (i : Nat) (first last : Nat) : M V Nat := do
  let v ← getVec i
  moveForward t v.data last first (v.size - last)
  destroyRange v.data (v.size - (last - first)) (last - first)
  setVec i { v with size := v.size - (last - first) }
  pure first

/-- pop_back, SmallVector.h:999-1004; `--size_` wraps for an empty vector. -/
def popBack (i : Nat) : M V Unit := do
  let v ← getVec i
  let size := (v.size + sizeLim - 1) % sizeLim
  setVec i { v with size := size }
  destroyElem v.data size

/-- resize(n), SmallVector.h:1106-1123. -/
def resize (t : Traits V) (i : Nat) (n : Nat) : M V Unit := do
  let v ← getVec i
  (if n < v.size then destroyRange v.data n (v.size - n)
   else if n > v.size then do
    reserve t i n
    let v ← getVec i
    fillDefault t v.data v.size (n - v.size)
   else pure ())
  let v ← getVec i
  setVec i { v with size := n }

/-- resize(n, element), SmallVector.h:1136-1149. -/
def resizeWith (t : Traits V) (i : Nat) (n : Nat) (src : Src V) : M V Unit := do
  let v ← getVec i
  (if n < v.size then destroyRange v.data n (v.size - n)
   else if n > v.size then do
    reserve t i n
    let v ← getVec i
    copyValueInto t v.data v.size (n - v.size) src
   else pure ())
  let v ← getVec i
  setVec i { v with size := n }

/-- shrink_to_fit, SmallVector.h:1155-1183. -/
def shrinkToFit (t : Traits V) (i : Nat) : M V Unit := do
  let v ← getVec i
  let newCap := max t.inCap v.size
  if newCap = v.cap then pure ()
  else do
    let nb ← (if newCap = t.inCap then pure (Blk.inner i) else alloc newCap)
    onThrow (uninitMoveOrCopy t v.data 0 nb 0 v.size)
      (if newCap = t.inCap then pure () else free nb)
    destroyRange v.data 0 v.size
    (if allocated i v then free v.data else pure ())
    setVec i { v with data := nb, cap := newCap }

/-- fill_empty_vector_with_copied_range, SmallVector.h:1323-1330; the distance is truncated to 32
bits. -/
def fillRange (t : Traits V) (i : Nat) (xs : List V) : M V Unit := do
  let n := xs.length % sizeLim
  reserve t i n
  let v ← getVec i
  copyRangeInto t v.data 0 xs
  setVec i { v with size := n }

/-- fill_empty_vector_with_copied_value, SmallVector.h:1340-1345. -/
def fillValue (t : Traits V) (i : Nat) (n : Nat) (src : Src V) : M V Unit := do
  reserve t i n
  let v ← getVec i
  copyValueInto t v.data 0 n src
  setVec i { v with size := n }

/-- move_or_copy_all_elements_from, SmallVector.h:1491-1509. -/
def stealAll (t : Traits V) (i j : Nat) : M V Unit := do
  let o ← getVec j
  if allocated j o then
    setVec i { data := o.data, cap := o.cap, size := o.size }
    setVec j { data := .inner j, cap := t.inCap, size := 0 }
  else
    let v ← getVec i
    setVec i { v with data := .inner i, cap := t.inCap }
    uninitMoveOrCopy t o.data 0 (.inner i) 0 o.size
    setVec i { data := .inner i, cap := t.inCap, size := o.size }
    clear j

/-- A constructor: if its body throws, the members cease to exist without the destructor of the
vector being run. -/
def ctor (t : Traits V) (i : Nat) (body : M V Unit) : M V Unit := do
  newVec t i
  onThrow body (dropVec i)

/-- Copying the elements of vector `j`, for the copy constructor, SmallVector.h:377-383 (as
fill_empty_vector_with_copied_range on the range of the other vector). -/
def fillFrom (t : Traits V) (i j : Nat) : M V Unit := do
  let o ← getVec j
  reserve t i o.size
  let v ← getVec i
  uninitCopy t o.data v.data o.size
  setVec i { v with size := o.size }

/-- A function declared `noexcept(cond)`. -/
def noexceptIf {α : Type} (c : Bool) (x : M V α) : M V α := if c then noexcept x else x

/-- Constructors, SmallVector.h:317-418, and destructor, 421-427. -/
def ctorN (t : Traits V) (i : Nat) (n : Nat) : M V Unit := ctor t i do
  reserve t i n
  let v ← getVec i
  build (fun k => construct false v.data k t.dflt) 0 n
  setVec i { v with size := n }

/-- SmallVector.h:317-418. -/
def ctorNV (t : Traits V) (i : Nat) (n : Nat) (src : Src V) : M V Unit := ctor t i (fillValue t i n src)
/-- SmallVector.h:317-418. -/
def ctorRange (t : Traits V) (i : Nat) (xs : List V) : M V Unit := ctor t i (fillRange t i xs)
/-- SmallVector.h:317-418. -/
def ctorCopy (t : Traits V) (i j : Nat) : M V Unit :=
  noexceptIf t.nothrowCopy (ctor t i (fillFrom t i j))
/-- SmallVector.h:398-418. -/
def ctorMove (t : Traits V) (i j : Nat) : M V Unit :=
  noexceptIf t.nothrowMove (ctor t i (stealAll t i j))

/-- SmallVector.h:421-427. -/
def dtor (i : Nat) : M V Unit := do
  clear i
  let v ← getVec i
  (if allocated i v then free v.data else pure ())
  dropVec i

/-- assign(n, value), SmallVector.h:436-440. -/
def assignN (t : Traits V) (i : Nat) (n : Nat) (src : Src V) : M V Unit := do
  clear i
  fillValue t i n src

/-- assign(first, last), SmallVector.h:456-462. -/
def assignRange (t : Traits V) (i : Nat) (xs : List V) : M V Unit := do
  clear i
  fillRange t i xs

/-- assign(initializer_list), SmallVector.h:476-484, also operator=(initializer_list), 953-957. -/
def assignInit (t : Traits V) (i : Nat) (xs : List V) : M V Unit := do
  let n := xs.length % sizeLim
  clear i
  reserve t i n
  let v ← getVec i
  copyRangeInto t v.data 0 xs
  setVec i { v with size := n }

/-- operator=(const SmallVector&), SmallVector.h:908-920. -/
def copyAssign (t : Traits V) (i j : Nat) : M V Unit :=
  noexceptIf t.nothrowCopyAssign do
    if i = j then pure ()
    else
      clear i
      fillFrom t i j

/-- operator=(SmallVector&&), SmallVector.h:935-947. -/
def moveAssign (t : Traits V) (i j : Nat) : M V Unit :=
  noexceptIf t.nothrowMove do
    if i = j then pure ()
    else
      clear i
      let v ← getVec i
      (if allocated i v then free v.data else pure ())
      stealAll t i j

/-- swap_heap_with_internal, SmallVector.h:1529-1540: `i` on the heap, `j` internal. -/
def swapHeapInternal (t : Traits V) (i j : Nat) : M V Unit := do
  let a ← getVec i
  let b ← getVec j
  uninitMoveOrCopy t b.data 0 (.inner i) 0 b.size
  destroyRange b.data 0 b.size
  setVec j { data := a.data, cap := a.cap, size := a.size }
  setVec i { data := .inner i, cap := b.cap, size := b.size }

/-- std::swap of two elements. std::swap of two elements, SmallVector.h:1552, 1560. -/
def swapElem (t : Traits V) (b : Blk) (c : Blk) (i : Nat) : M V Unit := do
  let x ← getCell b i
  elemIf t.nothrowMove (fun s => s.put b i (.live (t.moved x))) (fun left s => s.put b i (.live left))
  moveAssignElem t (.at c i) b i
  moveAssignElem t (.val x) c i

/-- swap_internal_with_internal, SmallVector.h:1547-1567. -/
def swapInternal (t : Traits V) (i j : Nat) : M V Unit := do
  let a ← getVec i
  let b ← getVec j
  (if a.size ≤ b.size then do
    build (fun k => swapElem t a.data b.data k) 0 a.size
    uninitMoveOrCopy t b.data a.size a.data a.size (b.size - a.size)
    destroyRange b.data a.size (b.size - a.size)
   else do
    build (fun k => swapElem t a.data b.data k) 0 b.size
    uninitMoveOrCopy t a.data b.size b.data b.size (a.size - b.size)
    destroyRange a.data b.size (a.size - b.size))
  setVec i { a with size := b.size }
  let b' ← getVec j
  setVec j { b' with size := a.size }

/-- swap, SmallVector.h:1195-1211, with swap_heap_with_heap, 1516-1521. -/
def swap (t : Traits V) (i j : Nat) : M V Unit := do
  let a ← getVec i
  let b ← getVec j
  if allocated i a then
    if allocated j b then
      setVec i b
      setVec j a
    else swapHeapInternal t i j
  else
    if allocated j b then swapHeapInternal t j i
    else swapInternal t i j

/-! ### observers -/

/-- size, SmallVector.h:1186, and empty, 686. -/
def size (i : Nat) : M V Nat := do
  let v ← getVec i
  pure v.size
def empty (i : Nat) : M V Bool := do
  let v ← getVec i
  pure (decide (v.size = 0))

/-- capacity, SmallVector.h:545. -/
def capacity (i : Nat) : M V Nat := do
  let v ← getVec i
  pure v.cap

/-- data, SmallVector.h:601-613: the block the elements are in. -/
def data (i : Nat) : M V Blk := do
  let v ← getVec i
  pure v.data

/-- inner_capacity, SmallVector.h:771, and max_size, 896-899. -/
def innerCapacity (t : Traits V) : Nat := t.inCap
def maxSize : Nat := sizeLim - 1

/-- operator[], SmallVector.h:984-993. -/
def index (i : Nat) (k : Nat) : M V V := do
  let v ← getVec i
  getCell v.data k

/-- at, SmallVector.h:490-503. -/
def at_ (i : Nat) (k : Nat) : M V V := do
  let v ← getVec i
  if k ≥ v.size then raise else getCell v.data k

/-- front, SmallVector.h:753-765. -/
def front (i : Nat) : M V V := do
  let v ← getVec i
  getCell v.data 0

/-- back, SmallVector.h:509-521; for an empty vector the address is before the block. -/
def back (i : Nat) : M V V := do
  let v ← getVec i
  if v.size = 0 then error else getCell v.data (v.size - 1)

/-- Iteration from begin() to end(), SmallVector.h:527-563. -/
def readFrom (b : Blk) : Nat → Nat → M V (List V)
  | _, 0 => pure []
  | k, cnt + 1 => do
      let x ← getCell b k
      let xs ← readFrom b (k + 1) cnt
      pure (x :: xs)

/-- What begin() to end() walks over, SmallVector.h:527-563. -/
def elements (i : Nat) : M V (List V) := do
  let v ← getVec i
  readFrom v.data 0 v.size

/-- operator==, SmallVector.h:966-969: std::equal. -/
def equal (eq : V → V → Bool) (i j : Nat) : M V Bool := do
  let xs ← elements i
  let ys ← elements j
  pure (xs.length == ys.length && (xs.zip ys).all fun p => eq p.1 p.2)

end Gul14.SmallVector
