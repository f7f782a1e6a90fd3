import Verif.SlidingBuffer.Model

/-! What a sliding buffer is supposed to be: a list of bounded length. -/
namespace Gul14.Spec
open SlidingBuffer

/-- A deque of bounded length. -/
structure Deque (α : Type) where
  cap : Nat
  items : List α
  deriving DecidableEq

variable {α : Type}

/-- The operations on a bounded deque; `none` where the documentation forbids the call. -/
def Deque.apply (d : Deque α) : Op α → Option (Deque α)
  | .pushBack x =>
      if d.cap = 0 then none
      else if d.items.length = d.cap then some ⟨d.cap, d.items.tail ++ [x]⟩
      else some ⟨d.cap, d.items ++ [x]⟩
  | .pushFront x =>
      if d.cap = 0 then none
      else if d.items.length = d.cap then some ⟨d.cap, x :: d.items.dropLast⟩
      else some ⟨d.cap, x :: d.items⟩
  | .popBack => if d.items = [] then none else some ⟨d.cap, d.items.dropLast⟩
  | .popFront => if d.items = [] then none else some ⟨d.cap, d.items.tail⟩
  | .clear => some ⟨d.cap, []⟩
  | .resize n .keepFront => some ⟨n, d.items.take n⟩
  | .resize n .keepBack => some ⟨n, d.items.drop (d.items.length - n)⟩

def Deque.run (d : Deque α) : List (Op α) → Option (Deque α)
  | [] => some d
  | op :: ops => (d.apply op).bind fun d => d.run ops

/-- Every observer of the buffer reports the deque. -/
structure Shows (b : Buf α) (d : Deque α) : Prop where
  size : size b = d.items.length
  capacity : capacity b = d.cap
  empty : empty b = true ↔ d.items = []
  filled : filled b = true ↔ d.items.length = d.cap ∧ d.cap ≠ 0
  at_ : ∀ i, at' b i = match d.items[i]? with | some x => .ok x | none => .throw .outOfRange
  index : ∀ i x, d.items[i]? = some x → index b i = .ok x
  front : ∀ x, d.items.head? = some x → front b = .ok x
  back : ∀ x, d.items.getLast? = some x → back b = .ok x
  forward : elements b = .ok d.items
  backward : elementsReverse b = .ok d.items.reverse

/-- Capacities that a container can have at all. -/
def Possible (cap : Nat) : Prop := cap < 2 ^ 62

def OpsPossible (ops : List (Op α)) : Prop := ∀ n s, Op.resize n s ∈ ops → Possible n

end Gul14.Spec

namespace Gul14.Spec
open SlidingBuffer
variable {α : Type}

/-- `b` is a buffer that results from allowed calls on a new one, and `d` what it should be. -/
def Reachable (exposed : Bool) (dflt : α) (b : Buf α) (d : Deque α) : Prop :=
  ∃ (c : Nat) (ops : List (Op α)), Possible c ∧ OpsPossible ops ∧
    Deque.run ⟨c, []⟩ ops = some d ∧ run exposed dflt (new dflt c) ops = .ok b

/-- The operation removes no element explicitly. -/
def NoPop : Op α → Prop
  | .popBack => False
  | .popFront => False
  | _ => True

/-- Only push_back is used to add elements, none are popped. -/
def BackOnly : Op α → Prop
  | .pushBack _ => True
  | .clear => True
  | .resize _ _ => True
  | _ => False

/-- Only push_front is used to add elements, none are popped, and there is no resize. -/
def FrontOnly : Op α → Prop
  | .pushFront _ => True
  | .clear => True
  | _ => False

/-- `l` is a rotation of `r`. -/
def IsRotation (l r : List α) : Prop := ∃ k, k ≤ r.length ∧ l = r.drop k ++ r.take k

end Gul14.Spec
