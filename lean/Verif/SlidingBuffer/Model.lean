import Verif.Basic

/-!
# SlidingBuffer and SlidingBufferExposed (include/gul14/SlidingBuffer.h)

The element type is arbitrary; `dflt` is its default-constructed value.  Element operations do
not throw and allocation does not fail.  The model covers the fixed-capacity (std::array) and the
resizable (std::vector) variant: they differ only in that the former has no resize().
-/
namespace Gul14.SlidingBuffer

/-- ShrinkBehavior, SlidingBuffer.h:66. -/
inductive Shrink where
  | keepFront
  | keepBack
  deriving DecidableEq

/-- Data members, SlidingBuffer.h:250-257: idx_begin_, idx_end_, full_, storage_. -/
structure Buf (α : Type) where
  idxBegin : Nat
  idxEnd : Nat
  full : Bool
  storage : List α
  deriving DecidableEq

variable {α : Type}

/-- Constructors, SlidingBuffer.h:222 and 244 (`count` default-constructed elements). -/
def new (dflt : α) (count : Nat) : Buf α := ⟨0, 0, false, List.replicate count dflt⟩

/-- capacity(), SlidingBuffer.h:501-504. -/
def capacity (b : Buf α) : Nat := b.storage.length

/-- Subscript of std::array and std::vector: undefined outside the range. std::vector::operator[] or
std::array::operator[]; no code in /repo. -/
def subscript (st : List α) (i : Nat) : Res α :=
  match st[i]? with
  | some x => .ok x
  | none => .ub

/-- Assignment through a subscript of std::array and std::vector. std::vector::operator[] or
std::array::operator[]; no code in /repo. -/
def store (st : List α) (i : Nat) (x : α) : Res (List α) :=
  if i < st.length then .ok (st.set i x) else .ub

/-- decrease_idx, SlidingBuffer.h:941-947 (size_t arithmetic: `capacity() - 1` wraps for zero). -/
def decreaseIdx (b : Buf α) (idx : Nat) : Nat :=
  if idx = 0 then (capacity b + sizeMod - 1) % sizeMod else idx - 1

/-- increase_idx, SlidingBuffer.h:949-955. -/
def increaseIdx (b : Buf α) (idx : Nat) : Nat :=
  if (idx + 1) % sizeMod ≥ capacity b then 0 else (idx + 1) % sizeMod

/-- pop_back, SlidingBuffer.h:270-274. -/
def popBack (b : Buf α) : Buf α := { b with idxEnd := decreaseIdx b b.idxEnd, full := false }

/-- pop_front, SlidingBuffer.h:287-291. -/
def popFront (b : Buf α) : Buf α := { b with idxBegin := increaseIdx b b.idxBegin, full := false }

/-- push_back, SlidingBuffer.h:306-315 and 320-329. -/
def pushBack (b : Buf α) (x : α) : Res (Buf α) :=
  (store b.storage b.idxEnd x).bind fun st =>
    let b := { b with storage := st }
    let b := { b with idxEnd := increaseIdx b b.idxEnd }
    if b.full then .ok { b with idxBegin := increaseIdx b b.idxBegin }
    else if b.idxEnd = b.idxBegin then .ok { b with full := true }
    else .ok b

/-- push_front, SlidingBuffer.h:344-354 and 359-369. -/
def pushFront (b : Buf α) (x : α) : Res (Buf α) :=
  let b := { b with idxBegin := decreaseIdx b b.idxBegin }
  let b :=
    if b.full then { b with idxEnd := decreaseIdx b b.idxEnd }
    else if b.idxEnd = b.idxBegin then { b with full := true }
    else b
  (store b.storage b.idxBegin x).map fun st => { b with storage := st }

/-- operator[], SlidingBuffer.h:381-396; noexcept, `idx += idx_begin_` in size_t. -/
def index (b : Buf α) (idx : Nat) : Res α :=
  let idx := (idx + b.idxBegin) % sizeMod
  if idx ≥ capacity b then subscript b.storage (idx - capacity b) else subscript b.storage idx

/-- size(), SlidingBuffer.h:483-492. -/
def size (b : Buf α) : Nat :=
  if b.full then capacity b
  else if b.idxEnd ≥ b.idxBegin then b.idxEnd - b.idxBegin
  else (b.idxEnd + capacity b + sizeMod - b.idxBegin) % sizeMod

/-- at(), SlidingBuffer.h:409-430. -/
def at' (b : Buf α) (idx : Nat) : Res α :=
  if idx ≥ size b then .throw .outOfRange else index b idx

/-- front(), SlidingBuffer.h:438-449. -/
def front (b : Buf α) : Res α := subscript b.storage b.idxBegin

/-- back(), SlidingBuffer.h:457-474. -/
def back (b : Buf α) : Res α :=
  if b.idxEnd = 0 then subscript b.storage ((capacity b + sizeMod - 1) % sizeMod)
  else subscript b.storage (b.idxEnd - 1)

/-- filled(), SlidingBuffer.h:514-517. -/
def filled (b : Buf α) : Bool := b.full

/-- empty(), SlidingBuffer.h:578-581. -/
def empty (b : Buf α) : Bool := !b.full && b.idxBegin == b.idxEnd

/-- clear(), SlidingBuffer.h:526-534. -/
def clear (dflt : α) (b : Buf α) : Buf α :=
  ⟨0, 0, false, b.storage.map fun _ => dflt⟩

/-- std::rotate(begin, begin + n, end): undefined if `begin + n` lies past the end. std::rotate,
SlidingBuffer.h:997, 1009, 1020, 1301. -/
def rotate (st : List α) (n : Nat) : Res (List α) :=
  if n ≤ st.length then .ok (st.drop n ++ st.take n) else .ub

/-- std::vector::resize. std::vector::resize, SlidingBuffer.h:985, 998, 1010, 1021, 1290, 1303. -/
def vectorResize (dflt : α) (st : List α) (n : Nat) : List α :=
  st.take n ++ List.replicate (n - st.length) dflt

/-- change_capacity, SlidingBuffer.h:972-1026. -/
def changeCapacity (dflt : α) (b : Buf α) (newCapacity : Nat) (shrink : Shrink) : Res (Buf α) :=
  let oldCapacity := capacity b
  let oldSize := size b
  if newCapacity = oldCapacity then .ok b
  else if newCapacity = 0 then .ok ⟨0, 0, false, []⟩
  else if newCapacity > oldCapacity then
    (rotate b.storage b.idxBegin).map fun st =>
      ⟨0, oldSize, false, vectorResize dflt st newCapacity⟩
  else if oldSize < newCapacity then
    (rotate b.storage b.idxBegin).map fun st =>
      ⟨0, oldSize, false, vectorResize dflt st newCapacity⟩
  else
    let newFront :=
      match shrink with
      | .keepBack => (b.idxEnd + oldCapacity - newCapacity) % oldCapacity
      | .keepFront => b.idxBegin
    (rotate b.storage newFront).map fun st =>
      ⟨0, 0, true, vectorResize dflt st newCapacity⟩

/-- resize()/reserve() of SlidingBuffer, SlidingBuffer.h:555-571. -/
def resize (dflt : α) (b : Buf α) (n : Nat) (shrink : Shrink) : Res (Buf α) :=
  changeCapacity dflt b n shrink

/-- std::move_backward(begin + first, begin + last, end): undefined unless `first ≤ last ≤ size`. The
moved-from elements keep their value (as for trivially movable types). std::move_backward,
SlidingBuffer.h:1291. -/
def moveBackward (st : List α) (first last : Nat) : Res (List α) :=
  if first ≤ last ∧ last ≤ st.length then
    .ok (st.take (st.length - (last - first)) ++ (st.take last).drop first)
  else .ub

/-- resize()/reserve() of SlidingBufferExposed, SlidingBuffer.h:1260-1315. -/
def resizeExposed (dflt : α) (b : Buf α) (newCapacity : Nat) (shrink : Shrink) : Res (Buf α) :=
  let oldCapacity := capacity b
  let rightAlign := shrink = .keepFront ∧ newCapacity > 0 ∧ newCapacity ≠ oldCapacity ∧
    b.full = false ∧ b.idxEnd = 0 ∧ b.idxBegin ≠ 0
  if ¬ rightAlign then changeCapacity dflt b newCapacity shrink
  else if newCapacity > oldCapacity then
    (moveBackward (vectorResize dflt b.storage newCapacity) b.idxBegin oldCapacity).map fun st =>
      { b with storage := st, idxBegin := b.idxBegin + (newCapacity - oldCapacity) }
  else
    let full := decide (size b ≥ newCapacity)
    let requiredShift := min (oldCapacity - newCapacity) b.idxBegin
    (rotate b.storage requiredShift).map fun st =>
      { b with storage := vectorResize dflt st newCapacity, idxBegin := b.idxBegin - requiredShift,
               full := full }

/-- What is left of a buffer based on std::vector after the defaulted move constructor or move
assignment, SlidingBuffer.h:226 and 230: the vector is empty, the other members are unchanged. -/
def movedFrom (b : Buf α) : Buf α := { b with storage := [] }

/-! ## Iterators, SlidingBuffer.h:640-938 -/

/-- SlidingBufferIterator: the logical position (the buffer pointer is implicit). -/
structure Iter where
  position : Nat
  deriving DecidableEq

/-- begin(), SlidingBuffer.h:846-855, 901-904. -/
def begin' (_ : Buf α) : Iter := ⟨0⟩

/-- end(), SlidingBuffer.h:873-882, 923-926. -/
def end' (b : Buf α) : Iter := ⟨size b⟩

/-- operator++, SlidingBuffer.h:677-689. -/
def Iter.inc (it : Iter) : Iter := ⟨(it.position + 1) % sizeMod⟩

/-- operator--, SlidingBuffer.h:715-727. -/
def Iter.dec (it : Iter) : Iter := ⟨(it.position + sizeMod - 1) % sizeMod⟩

/-- operator+=, operator+, SlidingBuffer.h:692-712: `d` is converted to size_t. -/
def Iter.add (it : Iter) (d : Int) : Iter := ⟨((it.position + d) % sizeMod).toNat⟩

/-- operator-=, operator-, SlidingBuffer.h:730-742. -/
def Iter.sub (it : Iter) (d : Int) : Iter := ⟨((it.position - d) % sizeMod).toNat⟩

/-- Conversion of a size_t to ptrdiff_t (two's complement). -/
def toPtrdiff (n : Int) : Int := Int.bmod n sizeMod

/-- Difference of two iterators, SlidingBuffer.h:745-750. -/
def Iter.diff (lhs rhs : Iter) : Int := toPtrdiff ((lhs.position : Int) - rhs.position)

/-- operator*, SlidingBuffer.h:753-758. -/
def Iter.deref (b : Buf α) (it : Iter) : Res α := index b it.position

/-- operator[], SlidingBuffer.h:769-774. -/
def Iter.at' (b : Buf α) (it : Iter) (offs : Int) : Res α := (it.add offs).deref b

/-- Comparisons, SlidingBuffer.h:781-838. -/
def Iter.eq (l r : Iter) : Bool := l.position == r.position
def Iter.lt (l r : Iter) : Bool := l.position < r.position
def Iter.gt (l r : Iter) : Bool := l.position > r.position
def Iter.le (l r : Iter) : Bool := l.position ≤ r.position
def Iter.ge (l r : Iter) : Bool := l.position ≥ r.position

/-- `for (auto it = first; it != last; ++it) visit(*it);` -/
def walk (b : Buf α) (last : Iter) : Nat → Iter → Res (List α)
  | fuel, it =>
      if it.eq last then .ok []
      else match fuel with
        | 0 => .diverge
        | fuel + 1 => (it.deref b).bind fun x => (walk b last fuel it.inc).map (x :: ·)

/-- The range-based for loop over the buffer; the fuel bounds the number of iterations. -/
def elements (b : Buf α) : Res (List α) := walk b (end' b) (capacity b) (begin' b)

/-- The loop with std::reverse_iterator from rbegin() to rend(), SlidingBuffer.h:862-865,
891-894: dereferencing yields the element before the base iterator, ++ decrements it. -/
def walkBack (b : Buf α) (last : Iter) : Nat → Iter → Res (List α)
  | fuel, it =>
      if it.eq last then .ok []
      else match fuel with
        | 0 => .diverge
        | fuel + 1 => (it.dec.deref b).bind fun x => (walkBack b last fuel it.dec).map (x :: ·)

def elementsReverse (b : Buf α) : Res (List α) :=
  walkBack b (begin' b) (capacity b) (end' b)

/-! ## The raw range of SlidingBufferExposed -/

/-- begin() as an offset into storage_, SlidingBuffer.h:1121-1147. -/
def exposedBegin (b : Buf α) : Nat :=
  if b.full = false ∧ (b.idxEnd = 0 ∨ b.idxEnd ≥ b.idxBegin) then b.idxBegin else 0

/-- end() as an offset into storage_, SlidingBuffer.h:1166-1192. -/
def exposedEnd (b : Buf α) : Nat :=
  if b.full ∨ b.idxBegin ≠ 0 then b.storage.length else b.idxEnd

/-- The elements visited from begin() to end(). -/
def exposedRange (b : Buf α) : List α := (b.storage.take (exposedEnd b)).drop (exposedBegin b)

/-! ## Histories -/

/-- The members of SlidingBuffer that modify it, SlidingBuffer.h:960-1310. -/
inductive Op (α : Type) where
  | pushBack (x : α)
  | pushFront (x : α)
  | popBack
  | popFront
  | clear
  | resize (n : Nat) (shrink : Shrink)
  deriving DecidableEq

/-- One call; `exposed` selects SlidingBufferExposed. The members of SlidingBuffer that modify it,
SlidingBuffer.h:960-1310. -/
def step (exposed : Bool) (dflt : α) (b : Buf α) : Op α → Res (Buf α)
  | .pushBack x => pushBack b x
  | .pushFront x => pushFront b x
  | .popBack => .ok (popBack b)
  | .popFront => .ok (popFront b)
  | .clear => .ok (clear dflt b)
  | .resize n s => if exposed then resizeExposed dflt b n s else resize dflt b n s

/-- The members of SlidingBuffer that modify it, SlidingBuffer.h:960-1310. -/
def run (exposed : Bool) (dflt : α) (b : Buf α) : List (Op α) → Res (Buf α)
  | [] => .ok b
  | op :: ops => (step exposed dflt b op).bind fun b => run exposed dflt b ops

end Gul14.SlidingBuffer
