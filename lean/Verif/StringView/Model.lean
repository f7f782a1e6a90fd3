import Verif.Basic

/-!
Model of include/gul14/string_view.h.

A view is modelled in two ways.  `View` keeps the memory block, the pointer and the length,
so that a view reaching outside its block is expressible; it is used for the slicing
functions.  The search and comparison functions only read the viewed characters, so they
take these characters as a list.

Simplification: `charT` is `char`, read as an unsigned byte (`std::char_traits<char>::lt`
compares as `unsigned char`).
-/

namespace Gul14.SV

/-! ### char_traits -/

/-- char_traits::compare, string_view.h:78-87: compare the first `n` characters.  Reading
past the end of an operand is undefined behaviour (`none`). -/
def traitsCompare : Str → Str → Nat → Option Int
  | _, _, 0 => some 0
  | a :: s1, b :: s2, n + 1 =>
      if a < b then some (-1)
      else if b < a then some 1
      else traitsCompare s1 s2 n
  | _, _, _ + 1 => none

/-- char_traits::find, string_view.h:97-104: does `c` occur in `s`? (the pointer returned is
only ever compared with null). -/
def traitsFind : Str → UInt8 → Bool
  | [], _ => false
  | a :: s, c => if a = c then true else traitsFind s c

/-! ### comparison -/

/-- basic_string_view::compare(x), string_view.h:222-225. -/
def compare (a x : Str) : Option Int :=
  match traitsCompare a x (min a.length x.length) with
  | none => none
  | some cmp =>
      some (if cmp ≠ 0 then cmp
            else if a.length = x.length then 0
            else if a.length < x.length then -1 else 1)

/-- operator==, string_view.h:379-383. -/
def opEq (x y : Str) : Option Bool :=
  if x.length ≠ y.length then some false else (compare x y).map (· == 0)

/-- operator!=, string_view.h:387-391. -/
def opNe (x y : Str) : Option Bool :=
  if x.length ≠ y.length then some true else (compare x y).map (· != 0)

/-- operator<, string_view.h:395-398. -/
def opLt (x y : Str) : Option Bool := (compare x y).map (fun c => decide (c < 0))

/-- operator>, string_view.h:402-405. -/
def opGt (x y : Str) : Option Bool := (compare x y).map (fun c => decide (c > 0))

/-- operator<=, string_view.h:409-412. -/
def opLe (x y : Str) : Option Bool := (compare x y).map (fun c => decide (c ≤ 0))

/-- operator>=, string_view.h:416-419. -/
def opGe (x y : Str) : Option Bool := (compare x y).map (fun c => decide (c ≥ 0))

/-! ### searches

A search is first modelled as a function to `Option Nat`, where `none` is undefined behaviour: a character
outside of the views is read, or an iterator leaves its range.  The value of the search, which is what other
functions use, is taken from this; `c07_defined` says that it always exists. -/

/-- The difference of two values of type std::size_t. Language semantics; no code in /repo. -/
def sizeSub (a b : Nat) : Nat := (a + sizeMod - b % sizeMod) % sizeMod

/-- Loop of find, string_view.h:259-263; the last argument is the number of values of `cur`
still to be tried (`end + 1 - cur`). -/
def findLoopM (h s : Str) (cur : Nat) : Nat → Option Nat
  | 0 => some npos
  | k + 1 =>
      match traitsCompare (h.drop cur) s s.length with
      | none => none
      | some c => if c = 0 then some cur else findLoopM h s (cur + 1) k

/-- find(s, pos), string_view.h:251-264. -/
def findM (h s : Str) (pos : Nat) : Option Nat :=
  if pos > h.length then some npos
  else if s.length = 0 then some pos
  else if h.length < s.length then some npos
  else
    let last := sizeSub h.length s.length
    findLoopM h s pos (last + 1 - pos)

/-- The value of find(s, pos), string_view.h:251-264. -/
def find (h s : Str) (pos : Nat) : Nat := (findM h s pos).getD npos

/-- Loop of rfind, string_view.h:280-285: `cur` runs down to 0. -/
def rfindLoopM (h s : Str) : Nat → Option Nat
  | 0 =>
      match traitsCompare h s s.length with
      | none => none
      | some c => if c = 0 then some 0 else some npos
  | cur + 1 =>
      match traitsCompare (h.drop (cur + 1)) s s.length with
      | none => none
      | some c => if c = 0 then some (cur + 1) else rfindLoopM h s cur

/-- rfind(s, pos), string_view.h:273-286. -/
def rfindM (h s : Str) (pos : Nat) : Option Nat :=
  if h.length < s.length then some npos
  else
    let pos := if pos > sizeSub h.length s.length then sizeSub h.length s.length else pos
    if s.length = 0 then some pos else rfindLoopM h s pos

/-- The value of rfind(s, pos), string_view.h:273-286. -/
def rfind (h s : Str) (pos : Nat) : Nat := (rfindM h s pos).getD npos

/-- std::find_first_of over a range: index of the first element that is in `s`, or the
length of the range. Specified by the C++ standard library; no code in /repo. -/
def stdFindFirstOf : Str → Str → Nat
  | [], _ => 0
  | c :: h, s => if s.contains c then 0 else stdFindFirstOf h s + 1

/-- The characters from `begin() + pos` on, for begin() of a view or crbegin(): the iterator may not go
past the end. Language semantics; no code in /repo. -/
def rangeFrom (h : Str) (pos : Nat) : Option Str := if pos ≤ h.length then some (h.drop pos) else none

/-- find_first_of(s, pos), string_view.h:295-301. -/
def findFirstOfM (h s : Str) (pos : Nat) : Option Nat :=
  if pos ≥ h.length ∨ s.length = 0 then some npos
  else
    (rangeFrom h pos).map fun r =>
      let d := stdFindFirstOf r s
      if pos + d = h.length then npos else pos + d

/-- The value of find_first_of(s, pos), string_view.h:295-301. -/
def findFirstOf (h s : Str) (pos : Nat) : Nat := (findFirstOfM h s pos).getD npos

/-- find_last_of(s, pos), string_view.h:310-320; the range crbegin()+pos .. crend() is the
reversed list from `pos` on. -/
def findLastOfM (h s : Str) (pos : Nat) : Option Nat :=
  if s.length = 0 then some npos
  else
    let rpos := if pos ≥ h.length then 0 else sizeSub h.length (pos + 1)
    (rangeFrom h.reverse rpos).map fun r =>
      let d := stdFindFirstOf r s
      if rpos + d = h.length then npos else sizeSub (sizeSub h.length 1) (rpos + d)

/-- The value of find_last_of(s, pos), string_view.h:310-320. -/
def findLastOf (h s : Str) (pos : Nat) : Nat := (findLastOfM h s pos).getD npos

/-- find_not_of, string_view.h:362-368: index of the first element not in `s`, or the length
of the range. -/
def findNotOf : Str → Str → Nat
  | [], _ => 0
  | c :: h, s => if traitsFind s c = false then 0 else findNotOf h s + 1

/-- find_first_not_of(s, pos), string_view.h:329-336. -/
def findFirstNotOfM (h s : Str) (pos : Nat) : Option Nat :=
  if pos ≥ h.length then some npos
  else if s.length = 0 then some pos
  else
    (rangeFrom h pos).map fun r =>
      let d := findNotOf r s
      if pos + d = h.length then npos else pos + d

/-- The value of find_first_not_of(s, pos), string_view.h:329-336. -/
def findFirstNotOf (h s : Str) (pos : Nat) : Nat := (findFirstNotOfM h s pos).getD npos

/-- find_last_not_of(s, pos), string_view.h:345-353, with 64-bit wrap-around of `len_ - 1`
and `pos + 1` for the empty view. -/
def findLastNotOfM (h s : Str) (pos : Nat) : Option Nat :=
  let pos := if pos ≥ h.length then sizeSub h.length 1 else pos
  if s.length = 0 then some pos
  else
    let rpos := sizeSub h.length (pos + 1)
    (rangeFrom h.reverse rpos).map fun r =>
      let d := findNotOf r s
      if rpos + d = h.length then npos else sizeSub (sizeSub h.length 1) (rpos + d)

/-- The value of find_last_not_of(s, pos), string_view.h:345-353. -/
def findLastNotOf (h s : Str) (pos : Nat) : Nat := (findLastNotOfM h s pos).getD npos

/-! ### slicing -/

/-- A view with its memory block: `ptr_` points to `mem[off]`, `len_` is `len`. -/
structure View where
  mem : Str
  off : Nat
  len : Nat
  deriving DecidableEq, Repr

/-- The view lies inside its memory block. -/
def View.Valid (v : View) : Prop := v.off + v.len ≤ v.mem.length

instance (v : View) : Decidable v.Valid := inferInstanceAs (Decidable (_ ≤ _))

/-- The viewed characters. -/
def View.chars (v : View) : Str := (v.mem.drop v.off).take v.len

/-- Reads `ptr_[i]` (operator[], string_view.h:169); outside the memory block: undefined. -/
def View.read (v : View) (i : Nat) : Res UInt8 :=
  match v.mem[v.off + i]? with
  | some c => .ok c
  | none => .ub

/-- at, string_view.h:171-173. -/
def View.at (v : View) (pos : Nat) : Res UInt8 :=
  if pos ≥ v.len then .throw .outOfRange else v.read pos

/-- front, string_view.h:175. -/
def View.front (v : View) : Res UInt8 := v.read 0

/-- back, string_view.h:176; `len_ - 1` wraps for an empty view. -/
def View.back (v : View) : Res UInt8 := v.read ((v.len + sizeMod - 1) % sizeMod)

/-- remove_prefix, string_view.h:180-185. -/
def View.removePrefix (v : View) (n : Nat) : View :=
  let n := if n > v.len then v.len else n
  { v with off := v.off + n, len := v.len - n }

/-- remove_suffix, string_view.h:187-191. -/
def View.removeSuffix (v : View) (n : Nat) : View :=
  let n := if n > v.len then v.len else n
  { v with len := v.len - n }

/-- copy, string_view.h:204-212: returns the characters written to the destination. -/
def View.copy (v : View) (n pos : Nat) : Res Str :=
  if pos > v.len then .throw .outOfRange
  else
    let rlen := min n (v.len - pos)
    if v.off + pos + rlen ≤ v.mem.length then .ok ((v.mem.drop (v.off + pos)).take rlen)
    else .ub

/-- substr, string_view.h:214-220; the sum `pos + n` is a `std::size_t` and wraps. -/
def View.substr (v : View) (pos n : Nat) : Res View :=
  if pos > v.len then .throw .outOfRange
  else
    let n := if n = npos ∨ (pos + n) % sizeMod > v.len then v.len - pos else n
    .ok { v with off := v.off + pos, len := n }

/-- substr on the viewed characters (string_view.h:214-220), for the string functions built
on it: a result reaching past the end of the view counts as `ub`. -/
def substr (s : Str) (pos n : Nat) : Res Str :=
  if pos > s.length then .throw .outOfRange
  else
    let n := if n = npos ∨ (pos + n) % sizeMod > s.length then s.length - pos else n
    if pos + n ≤ s.length then .ok ((s.drop pos).take n) else .ub

/-- compare(pos1, n1, x), string_view.h:227-230: declared noexcept. -/
def compareSub (a : Str) (pos n : Nat) (x : Str) : Res (Option Int) :=
  ((substr a pos n).map (fun t => compare t x)).noexcept

/-- compare(pos1, n1, x, pos2, n2), string_view.h:232-235. -/
def compareSub2 (a : Str) (pos n : Nat) (x : Str) (pos2 n2 : Nat) : Res (Option Int) :=
  (substr a pos n).bind fun t => (substr x pos2 n2).map fun u => compare t u

end Gul14.SV
