import Verif.StringView.Model

/-! Model of the members and operators of string_view that take a C string, a pointer with a
length, a single character or a `std::string`, and of the conversion and concatenation with
`std::string`.

A pointer is modelled by the characters of its memory block from the place it points to up to
the end of the block, `none` is the null pointer.  Reading outside the block is undefined. -/

namespace Gul14.SV

/-- A pointer to characters. -/
abbrev Ptr := Option Str

/-- What `compare` and the operators give, with a read past a view as undefined behaviour. -/
def fromOpt {α} : Option α → Res α
  | some a => .ok a
  | none => .ub

/-- char_traits::length, string_view.h:89-95: the loop reads `s[len]` until it reads a zero
character.  `fuel` bounds the number of rounds; every round reads a further character of the
block, so that `block length + 1` rounds are enough. -/
def lengthLoop (m : Str) : Nat → Nat → Res Nat
  | 0, _ => .diverge
  | fuel + 1, len =>
    match m[len]? with
    | none => .ub
    | some c => if c ≠ 0 then lengthLoop m fuel (len + 1) else .ok len

/-- char_traits::length, string_view.h:89-95, including the null pointer. -/
def length : Ptr → Res Nat
  | none => .ub
  | some m => lengthLoop m (m.length + 1) 0

/-- basic_string_view(str, len), string_view.h:149-150.  Simplified: a view that leaves the
block is undefined at once, in the code only when a character outside is read. -/
def viewN (p : Ptr) (n : Nat) : Res Str :=
  match p with
  | none => if n = 0 then .ok [] else .ub
  | some m => if n ≤ m.length then .ok (m.take n) else .ub

/-- basic_string_view(str), string_view.h:146-147. -/
def viewC (p : Ptr) : Res Str := length p >>= fun n => viewN p n

/-- basic_string_view(const std::basic_string&), string_view.h:141-144: `data()` and
`length()`.  A `std::string` is modelled by its characters; its block ends in a further zero. -/
def viewS (s : Str) : Res Str := viewN (some (s ++ [0])) s.length

/-- basic_string_view(&c, 1) as in string_view.h:266, a view of a single character. -/
def viewChar (c : UInt8) : Res Str := viewN (some [c]) 1

/-- basic_string_view(), string_view.h:132-133. -/
def viewDefault : Res Str := viewN none 0

/-! ### Comparison, string_view.h:237-248 -/

/-- compare(x) for a C string, string_view.h:237-239. -/
def compareC (a : Str) (x : Ptr) : Res Int := viewC x >>= fun v => fromOpt (compare a v)

/-- compare(pos1, n1, x) for a C string, string_view.h:241-243. -/
def compareSubC (a : Str) (pos1 n1 : Nat) (x : Ptr) : Res Int :=
  substr a pos1 n1 >>= fun b => viewC x >>= fun v => fromOpt (compare b v)

/-- compare(pos1, n1, x, n2) for a pointer with a length, string_view.h:245-248. -/
def compareSubN (a : Str) (pos1 n1 : Nat) (x : Ptr) (n2 : Nat) : Res Int :=
  substr a pos1 n1 >>= fun b => viewN x n2 >>= fun v => fromOpt (compare b v)

/-! ### Searches, string_view.h:265-359 -/

/-- find(c, pos), string_view.h:265-266; `pos` defaults to 0. -/
def findChar (h : Str) (c : UInt8) (pos : Nat := 0) : Res Nat :=
  viewChar c >>= fun v => .ok (find h v pos)

/-- find(s, pos, n), string_view.h:267-268. -/
def findN (h : Str) (s : Ptr) (pos n : Nat) : Res Nat := viewN s n >>= fun v => .ok (find h v pos)

/-- find(s, pos) for a C string, string_view.h:269-270; `pos` defaults to 0. -/
def findC (h : Str) (s : Ptr) (pos : Nat := 0) : Res Nat :=
  viewC s >>= fun v => .ok (find h v pos)

/-- rfind(c, pos), string_view.h:287-288; `pos` defaults to npos. -/
def rfindChar (h : Str) (c : UInt8) (pos : Nat := npos) : Res Nat :=
  viewChar c >>= fun v => .ok (rfind h v pos)

/-- rfind(s, pos, n), string_view.h:289-290. -/
def rfindN (h : Str) (s : Ptr) (pos n : Nat) : Res Nat :=
  viewN s n >>= fun v => .ok (rfind h v pos)

/-- rfind(s, pos) for a C string, string_view.h:291-292; `pos` defaults to npos. -/
def rfindC (h : Str) (s : Ptr) (pos : Nat := npos) : Res Nat :=
  viewC s >>= fun v => .ok (rfind h v pos)

/-- find_first_of(c, pos), string_view.h:302-303; `pos` defaults to 0. -/
def findFirstOfChar (h : Str) (c : UInt8) (pos : Nat := 0) : Res Nat :=
  viewChar c >>= fun v => .ok (findFirstOf h v pos)

/-- find_first_of(s, pos, n), string_view.h:304-305. -/
def findFirstOfN (h : Str) (s : Ptr) (pos n : Nat) : Res Nat :=
  viewN s n >>= fun v => .ok (findFirstOf h v pos)

/-- find_first_of(s, pos) for a C string, string_view.h:306-307; `pos` defaults to 0. -/
def findFirstOfC (h : Str) (s : Ptr) (pos : Nat := 0) : Res Nat :=
  viewC s >>= fun v => .ok (findFirstOf h v pos)

/-- find_last_of(c, pos), string_view.h:321-322; `pos` defaults to npos. -/
def findLastOfChar (h : Str) (c : UInt8) (pos : Nat := npos) : Res Nat :=
  viewChar c >>= fun v => .ok (findLastOf h v pos)

/-- find_last_of(s, pos, n), string_view.h:323-324. -/
def findLastOfN (h : Str) (s : Ptr) (pos n : Nat) : Res Nat :=
  viewN s n >>= fun v => .ok (findLastOf h v pos)

/-- find_last_of(s, pos) for a C string, string_view.h:325-326; `pos` defaults to npos. -/
def findLastOfC (h : Str) (s : Ptr) (pos : Nat := npos) : Res Nat :=
  viewC s >>= fun v => .ok (findLastOf h v pos)

/-- find_first_not_of(c, pos), string_view.h:337-338; `pos` defaults to 0. -/
def findFirstNotOfChar (h : Str) (c : UInt8) (pos : Nat := 0) : Res Nat :=
  viewChar c >>= fun v => .ok (findFirstNotOf h v pos)

/-- find_first_not_of(s, pos, n), string_view.h:339-340. -/
def findFirstNotOfN (h : Str) (s : Ptr) (pos n : Nat) : Res Nat :=
  viewN s n >>= fun v => .ok (findFirstNotOf h v pos)

/-- find_first_not_of(s, pos) for a C string, string_view.h:341-342; `pos` defaults to 0. -/
def findFirstNotOfC (h : Str) (s : Ptr) (pos : Nat := 0) : Res Nat :=
  viewC s >>= fun v => .ok (findFirstNotOf h v pos)

/-- find_last_not_of(c, pos), string_view.h:354-355; `pos` defaults to npos. -/
def findLastNotOfChar (h : Str) (c : UInt8) (pos : Nat := npos) : Res Nat :=
  viewChar c >>= fun v => .ok (findLastNotOf h v pos)

/-- find_last_not_of(s, pos, n), string_view.h:356-357. -/
def findLastNotOfN (h : Str) (s : Ptr) (pos n : Nat) : Res Nat :=
  viewN s n >>= fun v => .ok (findLastNotOf h v pos)

/-- find_last_not_of(s, pos) for a C string, string_view.h:358-359; `pos` defaults to npos. -/
def findLastNotOfC (h : Str) (s : Ptr) (pos : Nat := npos) : Res Nat :=
  viewC s >>= fun v => .ok (findLastNotOf h v pos)

/-! ### Mixed comparison operators, string_view.h:421-563

`V` stands for a view, `S` for a `std::string`, `C` for a C string. -/

/-- operator==(view, string), string_view.h:421-425. -/
def eqVS (x y : Str) : Res Bool := viewS y >>= fun v => fromOpt (opEq x v)
/-- operator==(string, view), string_view.h:427-431. -/
def eqSV (x y : Str) : Res Bool := viewS x >>= fun v => fromOpt (opEq v y)
/-- operator==(view, C string), string_view.h:433-437. -/
def eqVC (x : Str) (y : Ptr) : Res Bool := viewC y >>= fun v => fromOpt (opEq x v)
/-- operator==(C string, view), string_view.h:439-443. -/
def eqCV (x : Ptr) (y : Str) : Res Bool := viewC x >>= fun v => fromOpt (opEq v y)

/-- operator!=(view, string), string_view.h:445-449. -/
def neVS (x y : Str) : Res Bool := viewS y >>= fun v => fromOpt (opNe x v)
/-- operator!=(string, view), string_view.h:451-455. -/
def neSV (x y : Str) : Res Bool := viewS x >>= fun v => fromOpt (opNe v y)
/-- operator!=(view, C string), string_view.h:457-461. -/
def neVC (x : Str) (y : Ptr) : Res Bool := viewC y >>= fun v => fromOpt (opNe x v)
/-- operator!=(C string, view), string_view.h:463-467. -/
def neCV (x : Ptr) (y : Str) : Res Bool := viewC x >>= fun v => fromOpt (opNe v y)

/-- operator<(view, string), string_view.h:469-473. -/
def ltVS (x y : Str) : Res Bool := viewS y >>= fun v => fromOpt (opLt x v)
/-- operator<(string, view), string_view.h:475-479. -/
def ltSV (x y : Str) : Res Bool := viewS x >>= fun v => fromOpt (opLt v y)
/-- operator<(view, C string), string_view.h:481-485. -/
def ltVC (x : Str) (y : Ptr) : Res Bool := viewC y >>= fun v => fromOpt (opLt x v)
/-- operator<(C string, view), string_view.h:487-491. -/
def ltCV (x : Ptr) (y : Str) : Res Bool := viewC x >>= fun v => fromOpt (opLt v y)

/-- operator>(view, string), string_view.h:493-497. -/
def gtVS (x y : Str) : Res Bool := viewS y >>= fun v => fromOpt (opGt x v)
/-- operator>(string, view), string_view.h:499-503. -/
def gtSV (x y : Str) : Res Bool := viewS x >>= fun v => fromOpt (opGt v y)
/-- operator>(view, C string), string_view.h:505-509. -/
def gtVC (x : Str) (y : Ptr) : Res Bool := viewC y >>= fun v => fromOpt (opGt x v)
/-- operator>(C string, view), string_view.h:511-515. -/
def gtCV (x : Ptr) (y : Str) : Res Bool := viewC x >>= fun v => fromOpt (opGt v y)

/-- operator<=(view, string), string_view.h:517-521. -/
def leVS (x y : Str) : Res Bool := viewS y >>= fun v => fromOpt (opLe x v)
/-- operator<=(string, view), string_view.h:523-527. -/
def leSV (x y : Str) : Res Bool := viewS x >>= fun v => fromOpt (opLe v y)
/-- operator<=(view, C string), string_view.h:529-533. -/
def leVC (x : Str) (y : Ptr) : Res Bool := viewC y >>= fun v => fromOpt (opLe x v)
/-- operator<=(C string, view), string_view.h:535-539. -/
def leCV (x : Ptr) (y : Str) : Res Bool := viewC x >>= fun v => fromOpt (opLe v y)

/-- operator>=(view, string), string_view.h:541-545. -/
def geVS (x y : Str) : Res Bool := viewS y >>= fun v => fromOpt (opGe x v)
/-- operator>=(string, view), string_view.h:547-551. -/
def geSV (x y : Str) : Res Bool := viewS x >>= fun v => fromOpt (opGe v y)
/-- operator>=(view, C string), string_view.h:553-557. -/
def geVC (x : Str) (y : Ptr) : Res Bool := viewC y >>= fun v => fromOpt (opGe x v)
/-- operator>=(C string, view), string_view.h:559-563. -/
def geCV (x : Ptr) (y : Str) : Res Bool := viewC x >>= fun v => fromOpt (opGe v y)

/-! ### Views and `std::string` -/

/-- The characters `*begin()`, …, up to `end()`: string_view.h:153-156, read one by one through
the iterator; `n` is the number of steps left to `end()`. -/
def readRange (v : View) (i : Nat) : Nat → Res Str
  | 0 => .ok []
  | n + 1 => v.read i >>= fun c => readRange v (i + 1) n >>= fun s => .ok (c :: s)

/-- The conversion to `std::string`, string_view.h:199-202: the string constructor copies the
range `begin()`, `end()`. -/
def View.toStr (v : View) : Res Str := readRange v 0 v.len

/-- `std::string::insert(pos, first, last)` of the standard: the range goes in before `pos`. -/
def stdInsert (s : Str) (pos : Nat) (x : Str) : Str := s.take pos ++ x ++ s.drop pos

/-- operator+=(string, view), string_view.h:653-657: `append(begin, end)`. -/
def appendView (a : Str) (b : View) : Res Str := readRange b 0 b.len >>= fun x => .ok (a ++ x)

/-- operator+(string, view), string_view.h:659-663. -/
def plusSV (a : Str) (b : View) : Res Str := appendView a b

/-- operator+(view, string), string_view.h:665-669: `insert(b.begin(), a.begin(), a.end())`. -/
def plusVS (a : View) (b : Str) : Res Str :=
  readRange a 0 a.len >>= fun x => .ok (stdInsert b 0 x)

/-- swap, string_view.h:193-196: exchanges the pointers, then the lengths.  The two views may
point into different blocks. -/
def View.swap (v w : View) : View × View :=
  let v1 : View := { v with mem := w.mem, off := w.off }
  let w1 : View := { w with mem := v.mem, off := v.off }
  ({ v1 with len := w1.len }, { w1 with len := v1.len })

end Gul14.SV
