/-!
# What a vector of limited size does

The specification does not mention memory: a vector is a list and a capacity.
-/
namespace Gul14.Spec.Sv

/-- A vector as its user sees it: its elements and its capacity. -/
structure Shown (V : Type) where
  elems : List V
  cap : Nat

/-- The vectors that exist, by number. -/
abbrev Vars (V : Type) := Nat → Option (Shown V)

/-- Calls.  Positions are indices; values do not refer to elements of vectors. -/
inductive Op (V : Type) where
  | new (i : Nat)
  | newN (i n : Nat)
  | newNV (i n : Nat) (v : V)
  | newRange (i : Nat) (ys : List V)
  | newCopy (i j : Nat)
  | newMove (i j : Nat)
  | delete (i : Nat)
  | clear (i : Nat)
  | reserve (i n : Nat)
  | pushBack (i : Nat) (rvalue : Bool) (v : V)
  | emplaceBack (i : Nat) (v : V)
  | popBack (i : Nat)
  | insert (i idx : Nat) (rvalue : Bool) (v : V)
  | emplace (i idx : Nat) (v : V)
  | insertN (i idx n : Nat) (v : V)
  | insertRange (i idx : Nat) (ys : List V)
  | erase (i first last : Nat)
  | resize (i n : Nat)
  | resizeWith (i n : Nat) (v : V)
  | shrinkToFit (i : Nat)
  | assignN (i n : Nat) (v : V)
  | assignRange (i : Nat) (ys : List V)
  | assignInit (i : Nat) (ys : List V)
  | copyAssign (i j : Nat)
  | moveAssign (i j : Nat)
  | swap (i j : Nat)

variable {V : Type}

/-- The largest size (SizeType is uint32_t). -/
def maxSize : Nat := 2 ^ 32 - 1

/-- The preconditions of the calls: the vectors exist (or do not exist yet), positions are valid, and
no size exceeds the range of the size type.  A range to be erased is not empty unless it lies at the
end (see `c28_erase_empty_violated`). -/
def legal (B : Vars V) : Op V → Prop
  | .new i => B i = none
  | .newN i n => B i = none ∧ n ≤ maxSize
  | .newNV i n _ => B i = none ∧ n ≤ maxSize
  | .newRange i ys => B i = none ∧ ys.length ≤ maxSize
  | .newCopy i j => B i = none ∧ ∃ y, B j = some y
  | .newMove i j => B i = none ∧ ∃ y, B j = some y
  | .delete i => ∃ x, B i = some x
  | .clear i => ∃ x, B i = some x
  | .reserve i n => (∃ x, B i = some x) ∧ n ≤ maxSize
  | .pushBack i _ _ => ∃ x, B i = some x ∧ x.elems.length < maxSize
  | .emplaceBack i _ => ∃ x, B i = some x ∧ x.elems.length < maxSize
  | .popBack i => ∃ x, B i = some x ∧ x.elems ≠ []
  | .insert i idx _ _ => ∃ x, B i = some x ∧ idx ≤ x.elems.length ∧ x.elems.length < maxSize
  | .emplace i idx _ => ∃ x, B i = some x ∧ idx ≤ x.elems.length ∧ x.elems.length < maxSize
  | .insertN i idx n _ => ∃ x, B i = some x ∧ idx ≤ x.elems.length ∧ x.elems.length + n ≤ maxSize
  | .insertRange i idx ys =>
      ∃ x, B i = some x ∧ idx ≤ x.elems.length ∧ x.elems.length + ys.length ≤ maxSize
  | .erase i first last => ∃ x, B i = some x ∧ last ≤ x.elems.length ∧
      (first < last ∨ first = last ∧ last = x.elems.length)
  | .resize i n => (∃ x, B i = some x) ∧ n ≤ maxSize
  | .resizeWith i n _ => (∃ x, B i = some x) ∧ n ≤ maxSize
  | .shrinkToFit i => ∃ x, B i = some x
  | .assignN i n _ => (∃ x, B i = some x) ∧ n ≤ maxSize
  | .assignRange i ys => (∃ x, B i = some x) ∧ ys.length ≤ maxSize
  | .assignInit i ys => (∃ x, B i = some x) ∧ ys.length ≤ maxSize
  | .copyAssign i j => (∃ x, B i = some x) ∧ ∃ y, B j = some y
  | .moveAssign i j => (∃ x, B i = some x) ∧ ∃ y, B j = some y
  | .swap i j => (∃ x, B i = some x) ∧ ∃ y, B j = some y

/-- Changing one vector. -/
def alter (B : Vars V) (i : Nat) (f : Shown V → Shown V) : Vars V :=
  fun k => if k = i then (B i).map f else B k

/-- Setting one vector. -/
def put (B : Vars V) (i : Nat) (x : Option (Shown V)) : Vars V := fun k => if k = i then x else B k

/-- The capacity that makes room for one more element: half as much again, at least one more, at most
the maximum. -/
def grown (cap : Nat) : Nat := min maxSize (cap + max 1 (cap / 2))

/-- Room for one more element. -/
def room (x : Shown V) : Nat := if x.elems.length < x.cap then x.cap else grown x.cap

/-- Inserting a list into a list. -/
def splice (xs : List V) (idx : Nat) (ys : List V) : List V := xs.take idx ++ ys ++ xs.drop idx

/-- The effect of a call. -/
def result (inCap : Nat) (dflt : V) (B : Vars V) : Op V → Vars V
  | .new i => put B i (some ⟨[], inCap⟩)
  | .newN i n => put B i (some ⟨List.replicate n dflt, max inCap n⟩)
  | .newNV i n v => put B i (some ⟨List.replicate n v, max inCap n⟩)
  | .newRange i ys => put B i (some ⟨ys, max inCap ys.length⟩)
  | .newCopy i j => put B i ((B j).map fun y => ⟨y.elems, max inCap y.elems.length⟩)
  | .newMove i j => put (put B i (B j)) j (some ⟨[], inCap⟩)
  | .delete i => put B i none
  | .clear i => alter B i fun x => ⟨[], x.cap⟩
  | .reserve i n => alter B i fun x => ⟨x.elems, max x.cap n⟩
  | .pushBack i _ v => alter B i fun x => ⟨x.elems ++ [v], room x⟩
  | .emplaceBack i v => alter B i fun x => ⟨x.elems ++ [v], room x⟩
  | .popBack i => alter B i fun x => ⟨x.elems.dropLast, x.cap⟩
  | .insert i idx _ v => alter B i fun x => ⟨splice x.elems idx [v], room x⟩
  | .emplace i idx v => alter B i fun x => ⟨splice x.elems idx [v], room x⟩
  | .insertN i idx n v => alter B i fun x =>
      ⟨splice x.elems idx (List.replicate n v), max x.cap (x.elems.length + n)⟩
  | .insertRange i idx ys => alter B i fun x =>
      ⟨splice x.elems idx ys, max x.cap (x.elems.length + ys.length)⟩
  | .erase i first last => alter B i fun x => ⟨x.elems.take first ++ x.elems.drop last, x.cap⟩
  | .resize i n => alter B i fun x =>
      ⟨x.elems.take n ++ List.replicate (n - x.elems.length) dflt, max x.cap n⟩
  | .resizeWith i n v => alter B i fun x =>
      ⟨x.elems.take n ++ List.replicate (n - x.elems.length) v, max x.cap n⟩
  | .shrinkToFit i => alter B i fun x => ⟨x.elems, max inCap x.elems.length⟩
  | .assignN i n v => alter B i fun x => ⟨List.replicate n v, max x.cap n⟩
  | .assignRange i ys => alter B i fun x => ⟨ys, max x.cap ys.length⟩
  | .assignInit i ys => alter B i fun x => ⟨ys, max x.cap ys.length⟩
  | .copyAssign i j => if i = j then B else
      alter B i fun x => match B j with
        | some y => ⟨y.elems, max x.cap y.elems.length⟩
        | none => x
  | .moveAssign i j => if i = j then B else put (put B i (B j)) j (some ⟨[], inCap⟩)
  | .swap i j => put (put B i (B j)) j (B i)

/-- The position a call returns. -/
def returns : Op V → Option Nat
  | .insert _ idx _ _ => some idx
  | .emplace _ idx _ => some idx
  | .insertN _ idx _ _ => some idx
  | .insertRange _ idx _ => some idx
  | .erase _ first _ => some first
  | _ => none

/-- The vectors a call changes. -/
def changes : Op V → List Nat
  | .new i | .newN i _ | .newNV i _ _ | .newRange i _ | .newCopy i _ | .delete i | .clear i
  | .reserve i _ | .pushBack i _ _ | .emplaceBack i _ | .popBack i | .insert i _ _ _ | .emplace i _ _
  | .insertN i _ _ _ | .insertRange i _ _ | .erase i _ _ | .resize i _ | .resizeWith i _ _
  | .shrinkToFit i | .assignN i _ _ | .assignRange i _ | .assignInit i _ | .copyAssign i _ => [i]
  | .newMove i j | .moveAssign i j | .swap i j => [i, j]

/-- A history of calls, each with its preconditions met, and the vectors it leads to. -/
inductive History (inCap : Nat) (dflt : V) : Vars V → List (Op V) → Vars V → Prop
  | nil (B : Vars V) : History inCap dflt B [] B
  | cons {B B' : Vars V} {op : Op V} {ops : List (Op V)} (h : legal B op)
      (ht : History inCap dflt (result inCap dflt B op) ops B') : History inCap dflt B (op :: ops) B'

end Gul14.Spec.Sv
