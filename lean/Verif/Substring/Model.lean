import Verif.StringView.Model

/-! Model of include/gul14/case_ascii.h, src/case_ascii.cc and
include/gul14/substring_checks.h. -/

namespace Gul14.Substring
open Gul14.SV

/-- lowercase_ascii(char), case_ascii.h:48-53.  `char` is signed: a byte ≥ 0x80 is negative
and fails `c >= 'A'`. -/
def lower (c : UInt8) : UInt8 :=
  if c.toInt8 ≥ 65 ∧ c.toInt8 ≤ 90 then c + (97 - 65) else c

/-- uppercase_ascii(char), case_ascii.h:87-92. -/
def upper (c : UInt8) : UInt8 :=
  if c.toInt8 ≥ 97 ∧ c.toInt8 ≤ 122 then c - (97 - 65) else c

/-- lowercase_ascii(string_view), case_ascii.cc:29-38: push_back in a loop. -/
def lowerStr (s : Str) : Str := s.foldl (fun r c => r ++ [lower c]) []

/-- uppercase_ascii(string_view), case_ascii.cc:48-57. -/
def upperStr (s : Str) : Str := s.foldl (fun r c => r ++ [upper c]) []

/-- lowercase_ascii_inplace, case_ascii.cc:40-46: assigns each character through a reference. -/
def lowerInplace : Str → Str
  | [] => []
  | c :: s => lower c :: lowerInplace s

/-- uppercase_ascii_inplace, case_ascii.cc:59-65. -/
def upperInplace : Str → Str
  | [] => []
  | c :: s => upper c :: upperInplace s

/-- contains(haystack, needle), substring_checks.h:51-54. -/
def contains (h n : Str) : Bool := find h n 0 != npos

/-- contains(haystack, char), substring_checks.h:68-71 (find(charT), string_view.h:265-266). -/
def containsChar (h : Str) (c : UInt8) : Bool := find h [c] 0 != npos

/-- ends_with(str, suffix), substring_checks.h:85-91. -/
def endsWith (s suffix : Str) : Res Bool :=
  if s.length ≥ suffix.length then
    (compareSub s (s.length - suffix.length) suffix.length suffix).bind fun
      | some c => .ok (c == 0)
      | none => .ub
  else .ok false

/-- ends_with(str, char), substring_checks.h:104-107. -/
def endsWithChar (s : Str) (c : UInt8) : Bool :=
  match s.getLast? with
  | none => false
  | some b => b == c

/-- starts_with(str, prefix), substring_checks.h:121-127. -/
def startsWith (s pre : Str) : Res Bool :=
  if s.length ≥ pre.length then
    match SV.compare (s.take pre.length) pre with
    | some c => .ok (c == 0)
    | none => .ub
  else .ok false

/-- starts_with(str, char), substring_checks.h:140-143. -/
def startsWithChar (s : Str) (c : UInt8) : Bool :=
  match s.head? with
  | none => false
  | some b => b == c

/-- Loop of equals_nocase, substring_checks.h:174-183; running past the end of the second
string is undefined behaviour. -/
def equalsNocaseLoop : Str → Str → Res Bool
  | [], _ => .ok true
  | a :: s, b :: t => if lower a ≠ lower b then .ok false else equalsNocaseLoop s t
  | _ :: _, [] => .ub

/-- equals_nocase, substring_checks.h:165-184. -/
def equalsNocase (s t : Str) : Res Bool :=
  if s.length ≠ t.length then .ok false else equalsNocaseLoop s t

/-- Inner loop of contains_nocase, substring_checks.h:214-218: `true` if it ran to the end
(`j == size_t(-1)`), `false` if it was left by `break`. -/
def matchBackwards (h n : Str) : Nat → Res Bool
  | 0 => .ok true
  | j + 1 =>
      match h[j]?, n[j]? with
      | some a, some b => if lower a ≠ lower b then .ok false else matchBackwards h n j
      | _, _ => .ub

/-- Outer loop of contains_nocase, substring_checks.h:213-224; the last argument is the number
of values of `i` still to be tried. -/
def containsNocaseLoop (n : Str) : Str → Nat → Res Bool
  | _, 0 => .ok false
  | h, k + 1 =>
      (matchBackwards h n n.length).bind fun found =>
        if found then .ok true else containsNocaseLoop n (h.drop 1) k

/-- contains_nocase(haystack, needle), substring_checks.h:207-225. -/
def containsNocase (h n : Str) : Res Bool :=
  if h.length < n.length then .ok false
  else containsNocaseLoop n h (h.length - n.length + 1)

/-- contains_nocase(haystack, char), substring_checks.h:241-250. -/
def containsNocaseChar : Str → UInt8 → Bool
  | [], _ => false
  | a :: h, c => if lower a = lower c then true else containsNocaseChar h c

/-- starts_with_nocase(str, prefix), substring_checks.h:313-324. -/
def startsWithNocase : Str → Str → Bool
  | _ :: _, [] => true
  | a :: s, b :: p => if lower a ≠ lower b then false else startsWithNocase s p
  | [], p => p.isEmpty

/-- starts_with_nocase(str, char), substring_checks.h:339-342. -/
def startsWithNocaseChar (s : Str) (c : UInt8) : Bool :=
  match s.head? with
  | none => false
  | some b => lower b == lower c

/-- ends_with_nocase(str, suffix), substring_checks.h:267-278: both views are shortened at
their ends, i.e. the loop walks over the reversed strings. -/
def endsWithNocaseRev : Str → Str → Bool
  | _ :: _, [] => true
  | a :: s, b :: p => if lower a ≠ lower b then false else endsWithNocaseRev s p
  | [], p => p.isEmpty

/-- substring_checks.h:267-275. -/
def endsWithNocase (s suffix : Str) : Bool := endsWithNocaseRev s.reverse suffix.reverse

/-- ends_with_nocase(str, char), substring_checks.h:293-296. -/
def endsWithNocaseChar (s : Str) (c : UInt8) : Bool :=
  match s.getLast? with
  | none => false
  | some b => lower b == lower c

end Gul14.Substring
